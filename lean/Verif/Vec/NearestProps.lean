import Verif.Vec.Nearest
import Verif.Vec.PlanarProps
import Verif.Vec.PolygonSpec
import Mathlib.Tactic.Positivity

/-!
Properties C44 (nearest point of a segment) and C45 (distance to a boundary).
-/

namespace Karta.Vec

theorem clamp_coord {c d s : ℚ} (hd : d ≠ 0) :
    (s * d + c > max c (c + d) ↔ (0 < d ∧ 1 < s) ∨ (d < 0 ∧ s < 0)) ∧
    (s * d + c < min c (c + d) ↔ (0 < d ∧ s < 0) ∨ (d < 0 ∧ 1 < s)) := by
  rcases lt_or_gt_of_ne hd with h | h
  · constructor
    · rw [gt_iff_lt, max_lt_iff]
      constructor
      · rintro ⟨h1, _⟩; right; exact ⟨h, by nlinarith⟩
      · rintro (⟨k, _⟩ | ⟨_, k⟩)
        · linarith
        · constructor <;> nlinarith
    · rw [lt_min_iff]
      constructor
      · rintro ⟨_, h1⟩; right; exact ⟨h, by nlinarith⟩
      · rintro (⟨k, _⟩ | ⟨_, k⟩)
        · linarith
        · constructor <;> nlinarith
  · constructor
    · rw [gt_iff_lt, max_lt_iff]
      constructor
      · rintro ⟨_, h1⟩; left; exact ⟨h, by nlinarith⟩
      · rintro (⟨_, k⟩ | ⟨k, _⟩)
        · constructor <;> nlinarith
        · linarith
    · rw [lt_min_iff]
      constructor
      · rintro ⟨h1, _⟩; left; exact ⟨h, by nlinarith⟩
      · rintro (⟨_, k⟩ | ⟨k, _⟩)
        · constructor <;> nlinarith
        · linarith

/-- Spec: `q` is a point of the segment nearest to `p`. -/
def NearestOn (s : Seg) (p q : Pt) : Prop := s.On q ∧ ∀ z, s.On z → sqDist q p ≤ sqDist z p

/-- Spec: a segment the routine treats correctly: it has positive length and is not both
horizontal and shorter than 0.0001. -/
def Seg.Regular (s : Seg) : Prop :=
  s.a ≠ s.b ∧ ¬ (s.a.y = s.b.y ∧ |s.a.x - s.b.x| < 1 / 10000)

/-- The three outcomes of the clamping. -/
theorem nearest_of_param (s : Seg) (p : Pt) (hv : s.a ≠ s.b)
    (r : ℚ) (hr : r * ((s.b.x - s.a.x) * (s.b.x - s.a.x) + (s.b.y - s.a.y) * (s.b.y - s.a.y))
      = (p.x - s.a.x) * (s.b.x - s.a.x) + (p.y - s.a.y) * (s.b.y - s.a.y)) :
    (1 < r → NearestOn s p s.b) ∧ (r < 0 → NearestOn s p s.a) ∧
    (0 ≤ r → r ≤ 1 → NearestOn s p ⟨r * (s.b.x - s.a.x) + s.a.x, r * (s.b.y - s.a.y) + s.a.y⟩) := by
  have hvv : 0 < (s.b.x - s.a.x) * (s.b.x - s.a.x) + (s.b.y - s.a.y) * (s.b.y - s.a.y) := by
    rcases lt_or_eq_of_le (add_nonneg (mul_self_nonneg (s.b.x - s.a.x)) (mul_self_nonneg (s.b.y - s.a.y))) with h | h
    · exact h
    · exfalso
      have h1 : s.b.x - s.a.x = 0 := by nlinarith [mul_self_nonneg (s.b.x - s.a.x), mul_self_nonneg (s.b.y - s.a.y)]
      have h2 : s.b.y - s.a.y = 0 := by nlinarith [mul_self_nonneg (s.b.x - s.a.x), mul_self_nonneg (s.b.y - s.a.y)]
      apply hv
      obtain ⟨⟨ax, ay⟩, ⟨bx, byy⟩⟩ := s
      simp only [P2.mk.injEq] at *
      constructor <;> linarith
  set vv := (s.b.x - s.a.x) * (s.b.x - s.a.x) + (s.b.y - s.a.y) * (s.b.y - s.a.y) with hvvdef
  have key : ∀ t : ℚ, sqDist ⟨s.a.x + t * (s.b.x - s.a.x), s.a.y + t * (s.b.y - s.a.y)⟩ p
      = sqDist s.a p + (t * t - 2 * t * r) * vv := by
    intro t
    unfold sqDist
    simp only
    linear_combination (2 * t) * hr + (-t * t) * hvvdef
  have hz : ∀ z, s.On z → ∃ t, 0 ≤ t ∧ t ≤ 1 ∧ sqDist z p = sqDist s.a p + (t * t - 2 * t * r) * vv := by
    rintro z ⟨t, h0, h1, e1, e2⟩
    refine ⟨t, h0, h1, ?_⟩
    rw [← key t, ← e1, ← e2]
  refine ⟨fun h => ⟨⟨1, zero_le_one, le_refl _, by ring, by ring⟩, ?_⟩,
    fun h => ⟨⟨0, le_refl _, zero_le_one, by ring, by ring⟩, ?_⟩,
    fun h0 h1 => ⟨⟨r, h0, h1, by ring, by ring⟩, ?_⟩⟩
  · intro z hon
    obtain ⟨t, t0, t1, e⟩ := hz z hon
    have eb : sqDist s.b p = sqDist s.a p + (1 * 1 - 2 * 1 * r) * vv := by
      rw [← key 1]; unfold sqDist; simp only; ring
    rw [e, eb]
    have : (1 * 1 - 2 * 1 * r) ≤ (t * t - 2 * t * r) := by nlinarith
    nlinarith
  · intro z hon
    obtain ⟨t, t0, t1, e⟩ := hz z hon
    rw [e]
    have : 0 ≤ (t * t - 2 * t * r) := by nlinarith
    nlinarith
  · intro z hon
    obtain ⟨t, t0, t1, e⟩ := hz z hon
    have eb : sqDist ⟨r * (s.b.x - s.a.x) + s.a.x, r * (s.b.y - s.a.y) + s.a.y⟩ p
        = sqDist s.a p + (r * r - 2 * r * r) * vv := by
      rw [← key r]; unfold sqDist; simp only; ring
    rw [e, eb]
    have : (r * r - 2 * r * r) ≤ (t * t - 2 * t * r) := by nlinarith [mul_self_nonneg (t - r)]
    nlinarith

/-- C44 for segments of positive length that are not both horizontal and shorter than 0.0001: the
returned point lies on the segment, no point of the segment is nearer, and the returned distance is
the distance of the returned point.  Missing for the full C44: very short horizontal segments (see
below) and segments of length zero (an error is raised). -/
theorem C44_nearest_on_segment_partial (s : Seg) (p : Pt) (hs : s.Regular) :
    ∃ q, ptNearestPlanar p s.a s.b = .ok (q, sqDist q p) ∧ NearestOn s p q := by
  obtain ⟨hne, hreg⟩ := hs
  have hvv : (s.b.x - s.a.x) * (s.b.x - s.a.x) + (s.b.y - s.a.y) * (s.b.y - s.a.y) ≠ 0 := by
    intro h
    have h1 : s.b.x - s.a.x = 0 := by nlinarith [mul_self_nonneg (s.b.x - s.a.x), mul_self_nonneg (s.b.y - s.a.y)]
    have h2 : s.b.y - s.a.y = 0 := by nlinarith [mul_self_nonneg (s.b.x - s.a.x), mul_self_nonneg (s.b.y - s.a.y)]
    apply hne
    obtain ⟨⟨ax, ay⟩, ⟨bx, byy⟩⟩ := s
    simp only [P2.mk.injEq] at *
    constructor <;> linarith
  set r := ((p.x - s.a.x) * (s.b.x - s.a.x) + (p.y - s.a.y) * (s.b.y - s.a.y)) /
    ((s.b.x - s.a.x) * (s.b.x - s.a.x) + (s.b.y - s.a.y) * (s.b.y - s.a.y)) with hr
  have hproj : proj2 ⟨p.x - s.a.x, p.y - s.a.y⟩ ⟨s.b.x - s.a.x, s.b.y - s.a.y⟩ =
      .ok ⟨r * (s.b.x - s.a.x), r * (s.b.y - s.a.y)⟩ := by
    simp only [proj2, if_neg hvv]; rfl
  obtain ⟨k1, k2, k3⟩ := nearest_of_param s p hne r (div_mul_cancel₀ _ hvv)
  have emaxy : max s.a.y s.b.y = max s.a.y (s.a.y + (s.b.y - s.a.y)) := by ring_nf
  have eminy : min s.a.y s.b.y = min s.a.y (s.a.y + (s.b.y - s.a.y)) := by ring_nf
  have emaxx : max s.a.x s.b.x = max s.a.x (s.a.x + (s.b.x - s.a.x)) := by ring_nf
  have eminx : min s.a.x s.b.x = min s.a.x (s.a.x + (s.b.x - s.a.x)) := by ring_nf
  unfold ptNearestPlanar
  rw [hproj]
  simp only
  by_cases hc : |s.a.x - s.b.x| < 1 / 10000
  · rw [if_pos hc, emaxy, eminy]
    have hd : s.b.y - s.a.y ≠ 0 := fun h => hreg ⟨by linarith, hc⟩
    obtain ⟨c1, c2⟩ := clamp_coord (c := s.a.y) (s := r) hd
    by_cases g1 : r * (s.b.y - s.a.y) + s.a.y > max s.a.y (s.a.y + (s.b.y - s.a.y))
    · rw [if_pos g1]
      rcases c1.1 g1 with ⟨h1, h2⟩ | ⟨h1, h2⟩
      · rw [if_neg (by linarith)]; exact ⟨_, rfl, k1 h2⟩
      · rw [if_pos (by linarith)]; exact ⟨_, rfl, k2 h2⟩
    · rw [if_neg g1]
      by_cases g2 : r * (s.b.y - s.a.y) + s.a.y < min s.a.y (s.a.y + (s.b.y - s.a.y))
      · rw [if_pos g2]
        rcases c2.1 g2 with ⟨h1, h2⟩ | ⟨h1, h2⟩
        · rw [if_pos (by linarith)]; exact ⟨_, rfl, k2 h2⟩
        · rw [if_neg (by linarith)]; exact ⟨_, rfl, k1 h2⟩
      · rw [if_neg g2]
        refine ⟨_, rfl, k3 ?_ ?_⟩
        · by_contra h
          push Not at h
          rcases lt_or_gt_of_ne hd with h' | h'
          · exact g1 (c1.2 (Or.inr ⟨h', h⟩))
          · exact g2 (c2.2 (Or.inl ⟨h', h⟩))
        · by_contra h
          push Not at h
          rcases lt_or_gt_of_ne hd with h' | h'
          · exact g2 (c2.2 (Or.inr ⟨h', h⟩))
          · exact g1 (c1.2 (Or.inl ⟨h', h⟩))
  · rw [if_neg hc, emaxx, eminx]
    have hd : s.b.x - s.a.x ≠ 0 := by
      intro h
      apply hc
      rw [show s.a.x - s.b.x = 0 by linarith]; norm_num
    obtain ⟨c1, c2⟩ := clamp_coord (c := s.a.x) (s := r) hd
    by_cases g1 : r * (s.b.x - s.a.x) + s.a.x > max s.a.x (s.a.x + (s.b.x - s.a.x))
    · rw [if_pos g1]
      rcases c1.1 g1 with ⟨h1, h2⟩ | ⟨h1, h2⟩
      · rw [if_neg (by linarith)]; exact ⟨_, rfl, k1 h2⟩
      · rw [if_pos (by linarith)]; exact ⟨_, rfl, k2 h2⟩
    · rw [if_neg g1]
      by_cases g2 : r * (s.b.x - s.a.x) + s.a.x < min s.a.x (s.a.x + (s.b.x - s.a.x))
      · rw [if_pos g2]
        rcases c2.1 g2 with ⟨h1, h2⟩ | ⟨h1, h2⟩
        · rw [if_pos (by linarith)]; exact ⟨_, rfl, k2 h2⟩
        · rw [if_neg (by linarith)]; exact ⟨_, rfl, k1 h2⟩
      · rw [if_neg g2]
        refine ⟨_, rfl, k3 ?_ ?_⟩
        · by_contra h
          push Not at h
          rcases lt_or_gt_of_ne hd with h' | h'
          · exact g1 (c1.2 (Or.inr ⟨h', h⟩))
          · exact g2 (c2.2 (Or.inl ⟨h', h⟩))
        · by_contra h
          push Not at h
          rcases lt_or_gt_of_ne hd with h' | h'
          · exact g2 (c2.2 (Or.inr ⟨h', h⟩))
          · exact g1 (c1.2 (Or.inl ⟨h', h⟩))

/-- C44 is violated for horizontal segments shorter than 0.0001: the returned point is the
projection on the whole line. -/
theorem C44_violated_short_horizontal :
    ∃ (s : Seg) (p q : Pt) (d : ℚ), s.a ≠ s.b ∧ ptNearestPlanar p s.a s.b = .ok (q, d) ∧ ¬ s.On q := by
  refine ⟨⟨⟨0, 0⟩, ⟨1 / 20000, 0⟩⟩, ⟨5, 0⟩, ⟨5, 0⟩, 0, by decide +kernel, ?_, ?_⟩
  · have : (ptNearestPlanar ⟨5, 0⟩ ⟨0, 0⟩ ⟨1 / 20000, 0⟩).toOption = some (⟨5, 0⟩, 0) := by decide +kernel
    cases h : ptNearestPlanar ⟨5, 0⟩ ⟨0, 0⟩ ⟨1 / 20000, 0⟩ with
    | error e => rw [h] at this; cases this
    | ok v => rw [h] at this; simp only [Except.toOption, Option.some.injEq] at this; rw [this]
  · rintro ⟨t, _, h1, e, _⟩
    simp only at e
    linarith

/-- C44: a segment of length zero raises an error. -/
theorem C44_zero_length (p a : Pt) : ptNearestPlanar p a a = .error .zeroDivision := by
  simp [ptNearestPlanar, proj2]

example : Seg.Regular ⟨⟨0, 0⟩, ⟨2, 0⟩⟩ ∧
    (ptNearestPlanar ⟨1, 1⟩ ⟨0, 0⟩ ⟨2, 0⟩).toOption = some (⟨1, 0⟩, 1) := by
  refine ⟨⟨by decide +kernel, ?_⟩, by decide +kernel⟩
  rintro ⟨_, h⟩
  norm_num [abs_lt] at h

/-! ### Boundaries -/

/-- Spec: `m` is an entry of the list with the smallest second component. -/
theorem minLoop_spec (acc : Option (Pt × ℚ)) (rs : List (Pt × ℚ)) :
    (minLoop acc rs = none ↔ acc = none ∧ rs = []) ∧
    ∀ m, minLoop acc rs = some m → (acc = some m ∨ m ∈ rs) ∧
      (∀ a, acc = some a → m.2 ≤ a.2) ∧ ∀ r ∈ rs, m.2 ≤ r.2 := by
  induction rs generalizing acc with
  | nil =>
    constructor
    · simp [minLoop]
    · intro m h
      simp only [minLoop] at h
      exact ⟨Or.inl h, fun a ha => by rw [h] at ha; cases ha; exact le_refl _, by simp⟩
  | cons r rs ih =>
    cases acc with
    | none =>
      rw [minLoop]
      obtain ⟨i1, i2⟩ := ih (some r)
      constructor
      · simp [i1]
      · intro m h
        obtain ⟨j1, j2, j3⟩ := i2 m h
        refine ⟨Or.inr ?_, by simp, ?_⟩
        · rcases j1 with j | j
          · cases j; simp
          · simp [j]
        · intro q hq
          rcases List.mem_cons.1 hq with rfl | hq
          · exact j2 _ rfl
          · exact j3 q hq
    | some a =>
      rw [minLoop]
      obtain ⟨i1, i2⟩ := ih (some (if r.2 < a.2 then r else a))
      constructor
      · simp [i1]
      · intro m h
        obtain ⟨j1, j2, j3⟩ := i2 m h
        have hle := j2 _ rfl
        by_cases hc : r.2 < a.2
        · rw [if_pos hc] at j1 hle
          refine ⟨Or.inr ?_, ?_, ?_⟩
          · rcases j1 with j | j
            · cases j; simp
            · simp [j]
          · intro b hb; cases hb; linarith
          · intro q hq
            rcases List.mem_cons.1 hq with rfl | hq
            · exact hle
            · exact j3 q hq
        · rw [if_neg hc] at j1 hle
          refine ⟨?_, ?_, ?_⟩
          · rcases j1 with j | j
            · exact Or.inl j
            · exact Or.inr (by simp [j])
          · intro b hb; cases hb; exact hle
          · intro q hq
            rcases List.mem_cons.1 hq with rfl | hq
            · linarith [not_lt.1 hc]
            · exact j3 q hq

theorem mapM_ok {α β : Type} (f : α → Except Err β) (l : List α)
    (h : ∀ a ∈ l, ∃ b, f a = .ok b) : ∃ bs, l.mapM f = .ok bs ∧
      (∀ b ∈ bs, ∃ a ∈ l, f a = .ok b) ∧ (∀ a ∈ l, ∃ b ∈ bs, f a = .ok b) := by
  induction l with
  | nil => exact ⟨[], rfl, by simp, by simp⟩
  | cons a l ih =>
    obtain ⟨b, hb⟩ := h a (by simp)
    obtain ⟨bs, h1, h2, h3⟩ := ih (fun a ha => h a (by simp [ha]))
    refine ⟨b :: bs, ?_, ?_, ?_⟩
    · rw [List.mapM_cons, hb, h1]; rfl
    · intro c hc
      rcases List.mem_cons.1 hc with rfl | hc
      · exact ⟨a, by simp, hb⟩
      · obtain ⟨a', ha', e⟩ := h2 c hc
        exact ⟨a', by simp [ha'], e⟩
    · intro c hc
      rcases List.mem_cons.1 hc with rfl | hc
      · exact ⟨b, by simp, hb⟩
      · obtain ⟨b', hb', e⟩ := h3 c hc
        exact ⟨b', by simp [hb'], e⟩

theorem mem_openSegs (ps : List Pt) (a b : Pt) :
    (a, b) ∈ List.zip ps.dropLast ps.tail ↔ IsSegment false ps ⟨a, b⟩ := by
  rw [← mem_segsOf false ps ⟨a, b⟩]
  have e : List.zip ps.dropLast ps.tail = List.zip ps ps.tail := by
    cases ps with
    | nil => rfl
    | cons p ps =>
      simp only [List.tail_cons]
      induction ps generalizing p with
      | nil => rfl
      | cons q qs ih => simp only [List.dropLast_cons_cons, List.zip_cons_cons]; rw [ih]
  rw [e]
  simp only [segsOf, Bool.false_eq_true, if_false, List.zip_eq_zipWith]
  simp only [List.mem_iff_getElem?, List.getElem?_zipWith_eq_some]
  constructor
  · rintro ⟨i, x, y, h1, h2, h3⟩; cases h3; exact ⟨i, a, b, h1, h2, rfl⟩
  · rintro ⟨i, x, y, h1, h2, h3⟩; cases h3; exact ⟨i, a, b, h1, h2, rfl⟩

/-- Spec: `q` is a point of the geometry's boundary nearest to `p`. -/
def NearestOnBoundary (ring : Bool) (ps : List Pt) (p q : Pt) : Prop :=
  (∃ s, IsSegment ring ps s ∧ s.On q) ∧
  ∀ s z, IsSegment ring ps s → s.On z → sqDist q p ≤ sqDist z p

/-- C45 for lines whose segments all have positive length and are not both horizontal and shorter
than 0.0001: the position found is a nearest position of the line, and the distance found is its
distance.  Missing for the full C45: the closing segment of polygons, irregular segments and
`within_distance` (see the theorems below). -/
theorem C45_line_distance_partial (ps : List Pt) (p : Pt) (h2 : 2 ≤ ps.length)
    (hreg : ∀ s, IsSegment false ps s → s.Regular) :
    ∃ q, nearestToPoint p ps = .ok (some (q, sqDist q p)) ∧ NearestOnBoundary false ps p q := by
  have hex : ∀ e ∈ List.zip ps.dropLast ps.tail, ∃ r, ptNearestPlanar p e.1 e.2 = .ok r := by
    rintro ⟨a, b⟩ he
    obtain ⟨q, h, _⟩ := C44_nearest_on_segment_partial ⟨a, b⟩ p (hreg _ ((mem_openSegs ps a b).1 he))
    exact ⟨_, h⟩
  obtain ⟨rs, e1, e2, e3⟩ := mapM_ok (fun s : Pt × Pt => ptNearestPlanar p s.1 s.2) _ hex
  have hne : rs ≠ [] := by
    rcases ps with _ | ⟨a, _ | ⟨b, l⟩⟩
    · simp at h2
    · simp at h2
    · obtain ⟨r, hr, _⟩ := e3 (a, b) (by simp)
      intro h; rw [h] at hr; cases hr
  obtain ⟨m1, m2⟩ := minLoop_spec none rs
  cases hm : minLoop none rs with
  | none => exact absurd (m1.1 hm).2 hne
  | some m =>
    obtain ⟨j1, _, j3⟩ := m2 m hm
    have hmem : m ∈ rs := by
      rcases j1 with j | j
      · cases j
      · exact j
    obtain ⟨⟨a, b⟩, he, hab⟩ := e2 m hmem
    obtain ⟨q, hq, hn⟩ := C44_nearest_on_segment_partial ⟨a, b⟩ p (hreg _ ((mem_openSegs ps a b).1 he))
    rw [hq] at hab
    cases hab
    refine ⟨q, ?_, ⟨⟨a, b⟩, (mem_openSegs ps a b).1 he, hn.1⟩, ?_⟩
    · simp only [nearestToPoint, e1]
      show (Except.ok (minLoop none rs) : Except Err _) = _
      rw [hm]
    · rintro ⟨a', b'⟩ z hs hz
      have he' := (mem_openSegs ps a' b').2 hs
      obtain ⟨r', hr', hab'⟩ := e3 (a', b') he'
      obtain ⟨q', hq', hn'⟩ := C44_nearest_on_segment_partial ⟨a', b'⟩ p (hreg _ hs)
      rw [hq'] at hab'
      cases hab'
      exact le_trans (j3 _ hr') (hn'.2 z hz)

/-- C45 is violated for polygons: the closing segment is left out.  For the triangle below the
point lies on the closing segment but the distance found is positive. -/
theorem C45_violated_closing_segment :
    ∃ (ps : List Pt) (p q : Pt) (d : ℚ), nearestToPoint p ps = .ok (some (q, d)) ∧ 0 < d ∧
      ∃ s, IsSegment true ps s ∧ s.On p := by
  refine ⟨[⟨0, 0⟩, ⟨4, 0⟩, ⟨0, 4⟩], ⟨0, 2⟩, ⟨1, 3⟩, 2, ?_, by norm_num, ⟨⟨0, 4⟩, ⟨0, 0⟩⟩,
    Or.inr ⟨rfl, rfl, rfl⟩, ⟨1 / 2, by norm_num, by norm_num, by norm_num, by norm_num⟩⟩
  have : (nearestToPoint ⟨0, 2⟩ [⟨0, 0⟩, ⟨4, 0⟩, ⟨0, 4⟩]).toOption = some (some (⟨1, 3⟩, 2)) := by
    decide +kernel
  cases h : nearestToPoint ⟨0, 2⟩ [⟨0, 0⟩, ⟨4, 0⟩, ⟨0, 4⟩] with
  | error e => rw [h] at this; cases this
  | ok v => rw [h] at this; simp only [Except.toOption, Option.some.injEq] at this; rw [this]

/-- C45 is violated by `within_distance`: a point on the line is reported as not within distance 1
of it, because every segment is required to be near. -/
theorem C45_violated_within_distance :
    ∃ (ps : List Pt) (p : Pt) (d : ℚ), 0 < d ∧ withinDistance false p d ps = .ok false ∧
      ∃ s, IsSegment false ps s ∧ s.On p := by
  refine ⟨[⟨0, 0⟩, ⟨4, 0⟩, ⟨4, 4⟩], ⟨1, 0⟩, 1, by norm_num, ?_, ⟨⟨0, 0⟩, ⟨4, 0⟩⟩,
    Or.inl ⟨0, rfl, rfl⟩, ⟨1 / 4, by norm_num, by norm_num, by norm_num, by norm_num⟩⟩
  have : (withinDistance false ⟨1, 0⟩ 1 [⟨0, 0⟩, ⟨4, 0⟩, ⟨4, 4⟩]).toOption = some false := by
    decide +kernel
  cases h : withinDistance false ⟨1, 0⟩ 1 [⟨0, 0⟩, ⟨4, 0⟩, ⟨4, 4⟩] with
  | error e => rw [h] at this; cases this
  | ok v => rw [h] at this; simp only [Except.toOption, Option.some.injEq] at this; rw [this]

/-- C45, `within_distance` as it is: true exactly when every segment is within the distance.  In
particular it is right for a line of a single segment.  Missing for the full C45: lines of several
segments, where "some" is meant. -/
theorem C45_within_distance_partial (ring : Bool) (ps : List Pt) (p : Pt) (d : ℚ)
    (hreg : ∀ s, IsSegment ring ps s → s.Regular) :
    ∃ b, withinDistance ring p d ps = .ok b ∧
      (b = true ↔ ∀ s, IsSegment ring ps s → 0 ≤ d ∧ ∃ z, s.On z ∧ sqDist z p ≤ d ^ 2) := by
  have hstep : ∀ s, IsSegment ring ps s → ∃ q, nearestToPoint p [s.a, s.b] = .ok (some (q, sqDist q p)) ∧
      NearestOn s p q := by
    intro s hs
    obtain ⟨q, h1, h2⟩ := C44_nearest_on_segment_partial s p (hreg s hs)
    refine ⟨q, ?_, h2⟩
    simp only [nearestToPoint, List.dropLast_cons_cons, List.dropLast_singleton, List.tail_cons,
      List.zip_cons_cons, List.zip_nil_left, List.mapM_cons, List.mapM_nil, h1]
    rfl
  have hex : ∀ s ∈ segsOf ring ps, ∃ b, segWithin p d s = .ok b := by
    intro s hs
    obtain ⟨q, h1, _⟩ := hstep s ((mem_segsOf ring ps s).1 hs)
    rw [segWithin, h1]
    exact ⟨_, rfl⟩
  obtain ⟨bs, e1, e2, e3⟩ := mapM_ok _ _ hex
  refine ⟨bs.all id, by simp only [withinDistance, e1]; rfl, ?_⟩
  rw [List.all_eq_true]
  constructor
  · intro h s hs
    obtain ⟨b, hb, e⟩ := e3 s ((mem_segsOf ring ps s).2 hs)
    obtain ⟨q, h1, h2⟩ := hstep s hs
    rw [segWithin, h1] at e
    have e' : decide (0 ≤ d ∧ sqDist q p ≤ d ^ 2) = b := by
      have : (Except.ok (decide (0 ≤ d ∧ sqDist q p ≤ d ^ 2)) : Except Err Bool) = .ok b := e
      injection this
    have hb1 := h b hb
    rw [← e'] at hb1
    simp only [id, decide_eq_true_eq] at hb1
    exact ⟨hb1.1, q, h2.1, hb1.2⟩
  · intro h b hb
    obtain ⟨s, hs, e⟩ := e2 b hb
    have hs' := (mem_segsOf ring ps s).1 hs
    obtain ⟨q, h1, h2⟩ := hstep s hs'
    rw [segWithin, h1] at e
    have e' : decide (0 ≤ d ∧ sqDist q p ≤ d ^ 2) = b := by
      have : (Except.ok (decide (0 ≤ d ∧ sqDist q p ≤ d ^ 2)) : Except Err Bool) = .ok b := e
      injection this
    obtain ⟨h0, z, hz, hd⟩ := h s hs'
    rw [← e']
    simp only [id, decide_eq_true_eq]
    exact ⟨h0, le_trans (h2.2 z hz) hd⟩

example : (nearestToPoint ⟨0, 2⟩ [⟨0, 0⟩, ⟨4, 0⟩, ⟨0, 4⟩]).toOption = some (some (⟨1, 3⟩, 2)) := by
  decide +kernel

/-- The regularity hypothesis is met by an ordinary line. -/
example : ∀ s, IsSegment false [⟨0, 0⟩, ⟨4, 0⟩, ⟨0, 4⟩] s → s.Regular := by
  intro s hs
  rw [← mem_segsOf] at hs
  simp only [segsOf, Bool.false_eq_true, if_false, List.tail_cons, List.zipWith_cons_cons,
    List.zipWith_nil_right, List.mem_cons, List.not_mem_nil, or_false] at hs
  rcases hs with rfl | rfl
  · refine ⟨by decide +kernel, ?_⟩
    rintro ⟨_, h⟩
    norm_num [abs_lt] at h
  · refine ⟨by decide +kernel, ?_⟩
    rintro ⟨h, _⟩
    norm_num at h

end Karta.Vec
