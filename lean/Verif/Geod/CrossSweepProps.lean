import Verif.Geod.CrossSweep
import Verif.Geod.CrossPoint

/-!
# C138: whether two lines in a geographical system meet
-/

namespace Karta.Geod.Cross
open Karta Karta.Geod Karta.Geod.Sphere
open Karta.Vec (Pt segsOf)
open Karta.Vec.Sweep

/-! ## Specification -/

/-- A line that goes from west to east, or from east to west, in steps of less than 180 degrees, without reaching the meridian
180 or a pole. -/
structure OneWay (ps : List Pt) : Prop where
  lon : ∀ p ∈ ps, -180 < p.x ∧ p.x < 180
  lat : ∀ p ∈ ps, -90 < p.y ∧ p.y < 90
  step : ∀ s ∈ segsOf false ps, |s.a.x - s.b.x| < 180
  way : ps.Pairwise (fun p q => p.x ≤ q.x) ∨ ps.Pairwise (fun p q => q.x ≤ p.x)

/-- The two lines are in general position: they have no vertex in common, no vertex of one has the longitude of a segment
along a meridian of the other, and segments are on different great circles. -/
structure General (as bs : List Pt) : Prop where
  vertex : ∀ p ∈ as, p ∉ bs
  meridianA : ∀ s ∈ segsOf false as, s.a.x = s.b.x → ∀ q ∈ bs, q.x ≠ s.a.x
  meridianB : ∀ r ∈ segsOf false bs, r.a.x = r.b.x → ∀ p ∈ as, p.x ≠ r.a.x
  circles : ∀ s ∈ segsOf false as, ∀ r ∈ segsOf false bs, s.a.x ≠ s.b.x → r.a.x ≠ r.b.x → Different s r

/-- No crossing of great circles is computed within a hair of longitude 90 or -90 on the far side. -/
structure NoneFar (as bs : List Pt) : Prop where
  pair : ∀ s ∈ segsOf false as, ∀ r ∈ segsOf false bs, NotFar (nodeOf s r) ∧ NotFar (nodeOf r s)
  meridianA : ∀ s ∈ segsOf false as, ∀ r ∈ segsOf false bs, r.a.x = r.b.x → NotFar (meridianNode s r.a.x)
  meridianB : ∀ s ∈ segsOf false as, ∀ r ∈ segsOf false bs, s.a.x = s.b.x → NotFar (meridianNode r s.a.x)

/-- The two lines have a point in common. -/
def LinesMeet (as bs : List Pt) : Prop := ∃ s ∈ segsOf false as, ∃ r ∈ segsOf false bs, ArcsMeet s r

/-! ## The sweep line -/

/-- The heights compared on insertion are NaN: the segment from pole to pole has no normal. -/
theorem heightSph_none (s : CSeg) (x : ℚ) : heightSph s x = none := by
  have hp : pole ⟨⟨x, -90⟩, ⟨x, 90⟩⟩ = ⟨0, 0, 0⟩ := by
    unfold pole
    rw [vec_eq, vec_eq]
    dsimp only
    have e1 : Real.pi * ((-90 : ℚ) : ℝ) / 180 = -(Real.pi / 2) := by push_cast; ring
    have e2 : Real.pi * ((90 : ℚ) : ℝ) / 180 = Real.pi / 2 := by push_cast; ring
    rw [e1, e2, Real.cos_neg, Real.sin_neg, Real.cos_pi_div_two, Real.sin_pi_div_two]
    unfold cross3
    congr 1 <;> ring
  unfold heightSph intersectionSph
  rw [hp, show cross3 (pole s.seg) ⟨0, 0, 0⟩ = ⟨0, 0, 0⟩ by unfold cross3; congr 1 <;> ring, toLonLat_zero]
  rfl

theorem sweepInsertSph_front : sweepInsertSph = front := by
  funext x s q
  cases q with
  | nil => rfl
  | cons t q =>
    rw [sweepInsertSph, heightSph_none, heightSph_none, if_neg (by rintro (h | ⟨h, -⟩) <;> exact h)]
    rfl

theorem reducePt_id {p : Pt} (h : -180 < p.x ∧ p.x < 180) : reducePt p = p := by
  unfold reducePt Geod.reduceDeg
  have : Geod.pyMod (p.x + 180) 360 = p.x + 180 := by
    unfold Geod.pyMod
    have : ⌊(p.x + 180) / 360⌋ = 0 := by
      rw [Int.floor_eq_iff]
      constructor
      · push_cast; apply div_nonneg <;> linarith
      · push_cast; rw [div_lt_iff₀ (by norm_num)]; linarith
    rw [this]; push_cast; ring
  rw [this]
  simp

theorem reduce_map {ps : List Pt} (h : ∀ p ∈ ps, -180 < p.x ∧ p.x < 180) : ps.map reducePt = ps := by
  rw [List.map_congr_left (fun p hp => reducePt_id (h p hp)), List.map_id']

/-! ## Segments of a line -/

theorem segs_cons (p q : Pt) (ps : List Pt) : segsOf false (p :: q :: ps) = ⟨p, q⟩ :: segsOf false (q :: ps) := by
  simp [segsOf]

theorem segs_mem : ∀ {ps : List Pt} {s : Vec.Seg}, s ∈ segsOf false ps → s.a ∈ ps ∧ s.b ∈ ps
  | [], s, h => by simp [segsOf] at h
  | [p], s, h => by simp [segsOf] at h
  | p :: q :: ps, s, h => by
    rw [segs_cons] at h
    rcases List.mem_cons.1 h with rfl | h
    · simp
    · obtain ⟨h1, h2⟩ := segs_mem h
      exact ⟨List.mem_cons_of_mem _ h1, List.mem_cons_of_mem _ h2⟩

/-- One segment lies entirely to one side of the other. -/
def Beside (s t : Vec.Seg) : Prop := max t.a.x t.b.x ≤ min s.a.x s.b.x ∨ max s.a.x s.b.x ≤ min t.a.x t.b.x

theorem beside_symm {s t : Vec.Seg} (h : Beside s t) : Beside t s := h.symm

theorem segs_east : ∀ {ps : List Pt}, ps.Pairwise (fun p q => p.x ≤ q.x) → (segsOf false ps).Pairwise Beside
  | [], _ => by simp [segsOf]
  | [p], _ => by simp [segsOf]
  | p :: q :: ps, h => by
    rw [segs_cons]
    have h' := List.pairwise_cons.1 h
    have h2 := List.pairwise_cons.1 h'.2
    refine List.pairwise_cons.2 ⟨?_, segs_east h'.2⟩
    intro t ht
    obtain ⟨m1, m2⟩ := segs_mem ht
    right
    have hq : ∀ u ∈ q :: ps, q.x ≤ u.x := by
      intro u hu
      rcases List.mem_cons.1 hu with rfl | hu
      · exact le_refl _
      · exact h2.1 u hu
    exact max_le (le_min (le_trans (h'.1 q (by simp)) (hq _ m1)) (le_trans (h'.1 q (by simp)) (hq _ m2)))
      (le_min (hq _ m1) (hq _ m2))

theorem segs_west : ∀ {ps : List Pt}, ps.Pairwise (fun p q => q.x ≤ p.x) → (segsOf false ps).Pairwise Beside
  | [], _ => by simp [segsOf]
  | [p], _ => by simp [segsOf]
  | p :: q :: ps, h => by
    rw [segs_cons]
    have h' := List.pairwise_cons.1 h
    have h2 := List.pairwise_cons.1 h'.2
    refine List.pairwise_cons.2 ⟨?_, segs_west h'.2⟩
    intro t ht
    obtain ⟨m1, m2⟩ := segs_mem ht
    left
    have hq : ∀ u ∈ q :: ps, u.x ≤ q.x := by
      intro u hu
      rcases List.mem_cons.1 hu with rfl | hu
      · exact le_refl _
      · exact h2.1 u hu
    exact max_le (le_min (le_trans (hq _ m1) (h'.1 q (by simp))) (hq _ m1))
      (le_min (le_trans (hq _ m2) (h'.1 q (by simp))) (hq _ m2))

theorem segs_beside {ps : List Pt} (h : OneWay ps) : (segsOf false ps).Pairwise Beside := by
  rcases h.way with h | h
  · exact segs_east h
  · exact segs_west h

theorem pairwise_ne {α : Type} {R : α → α → Prop} (hs : ∀ a b, R a b → R b a) : ∀ {l : List α}, l.Pairwise R →
    ∀ a ∈ l, ∀ b ∈ l, a ≠ b → R a b := by
  intro l h
  induction l with
  | nil => intro a ha; simp at ha
  | cons c l ih =>
    obtain ⟨h1, h2⟩ := List.pairwise_cons.1 h
    intro a ha b hb hne
    rcases List.mem_cons.1 ha with ea | ha'
    · rcases List.mem_cons.1 hb with eb | hb'
      · exact absurd (ea.trans eb.symm) hne
      · rw [ea]; exact h1 b hb'
    · rcases List.mem_cons.1 hb with eb | hb'
      · rw [eb]; exact hs _ _ (h1 a ha')
      · exact ih h2 a ha' b hb' hne

theorem mem_colored {as bs : List Pt} {s : CSeg} : s ∈ colored false as false bs ↔
    (s.color = false ∧ s.seg ∈ segsOf false as) ∨ (s.color = true ∧ s.seg ∈ segsOf false bs) := by
  obtain ⟨g, c⟩ := s
  unfold colored
  simp only [List.mem_append, List.mem_map, CSeg.mk.injEq]
  constructor
  · rintro (⟨t, ht, rfl, rfl⟩ | ⟨t, ht, rfl, rfl⟩)
    · exact Or.inl ⟨rfl, ht⟩
    · exact Or.inr ⟨rfl, ht⟩
  · rintro (⟨rfl, h⟩ | ⟨rfl, h⟩)
    · exact Or.inl ⟨g, h, rfl, rfl⟩
    · exact Or.inr ⟨g, h, rfl, rfl⟩

theorem single_colored {as bs : List Pt} (ha : OneWay as) (hb : OneWay bs) : Single (colored false as false bs) := by
  intro s hs t ht _ _ hc hne
  have hne' : s.seg ≠ t.seg := by
    intro h; apply hne; obtain ⟨g, c⟩ := s; obtain ⟨g', c'⟩ := t; simp_all
  rcases mem_colored.1 hs with ⟨c1, m1⟩ | ⟨c1, m1⟩ <;> rcases mem_colored.1 ht with ⟨c2, m2⟩ | ⟨c2, m2⟩
  · exact pairwise_ne (fun _ _ h => beside_symm h) (segs_beside ha) _ m1 _ m2 hne'
  · rw [c1, c2] at hc; cases hc
  · rw [c1, c2] at hc; cases hc
  · exact pairwise_ne (fun _ _ h => beside_symm h) (segs_beside hb) _ m1 _ m2 hne'

theorem nodup_slanted {ps : List Pt} (h : OneWay ps) (c : Bool) :
    (((segsOf false ps).map fun s => (⟨s, c⟩ : CSeg)).filter fun s => decide s.Slanted).Nodup := by
  have h1 : ((segsOf false ps).map fun s => (⟨s, c⟩ : CSeg)).Pairwise fun s t => Beside s.seg t.seg := by
    rw [List.pairwise_map]; exact segs_beside h
  have h2 : (((segsOf false ps).map fun s => (⟨s, c⟩ : CSeg)).filter fun s => decide s.Slanted).Pairwise fun s t =>
      s.Slanted ∧ Beside s.seg t.seg := by
    rw [List.pairwise_filter]
    refine h1.imp ?_
    intro s t hb hs _
    exact ⟨by simpa using hs, hb⟩
  refine h2.imp ?_
  rintro s t ⟨hs, hb⟩ rfl
  have := lo_lt_hi hs
  unfold CSeg.lo CSeg.hi at this
  rcases hb with hb | hb <;> linarith

theorem nodup_colored {as bs : List Pt} (ha : OneWay as) (hb : OneWay bs) :
    ((colored false as false bs).filter fun s => decide s.Slanted).Nodup := by
  unfold colored
  rw [List.filter_append, List.nodup_append]
  refine ⟨nodup_slanted ha false, nodup_slanted hb true, ?_⟩
  rintro s hs t ht rfl
  have h1 := List.mem_of_mem_filter hs
  have h2 := List.mem_of_mem_filter ht
  obtain ⟨u, -, rfl⟩ := List.mem_map.1 h1
  obtain ⟨v, -, hv⟩ := List.mem_map.1 h2
  cases hv

theorem proper_of {ps : List Pt} (h : OneWay ps) {s : Vec.Seg} (hs : s ∈ segsOf false ps) (hne : s.a.x ≠ s.b.x) : Proper s := by
  obtain ⟨m1, m2⟩ := segs_mem hs
  exact ⟨h.lon _ m1, h.lon _ m2, h.lat _ m1, h.lat _ m2, hne, h.step s hs⟩

theorem meridional_of {ps : List Pt} (h : OneWay ps) {s : Vec.Seg} (hs : s ∈ segsOf false ps) (he : s.a.x = s.b.x) : Meridional s := by
  obtain ⟨m1, m2⟩ := segs_mem hs
  exact ⟨he, h.lon _ m1, h.lat _ m1, h.lat _ m2⟩

/-! ## Arcs -/

theorem arcsMeet_symm {s r : Vec.Seg} : ArcsMeet s r ↔ ArcsMeet r s := by
  unfold ArcsMeet
  constructor
  · rintro ⟨w, h, a, b⟩; exact ⟨w, h, b, a⟩
  · rintro ⟨w, h, a, b⟩; exact ⟨w, h, b, a⟩

theorem different_symm {s r : Vec.Seg} (h : Different s r) : Different r s := by
  unfold Different at *
  rintro ⟨a, b, c⟩
  apply h
  rw [node_eq] at *
  simp only [V3.opp, cross] at *
  refine ⟨?_, ?_, ?_⟩ <;> linarith

/-- A direction off the axis has a longitude. -/
theorem has_lon {w : V3} (hr : 0 < w.r) : ∃ l, HasLon w l ∧ -180 ≤ l ∧ l ≤ 180 := by
  have hx : (0 : ℝ) < |w.x| ∨ 0 ≤ w.x := by
    rcases lt_or_ge w.x 0 with h | h
    · exact Or.inl (abs_pos.2 h.ne)
    · exact Or.inr h
  obtain ⟨l1, l2, l3, l4⟩ := lambda_ok (eps := 0) hr hx
  have hpi := Real.pi_pos
  refine ⟨lambdaOf 0 w * 180 / Real.pi, ⟨w.r, hr, ?_, ?_⟩, ?_, ?_⟩
  · rw [show Real.pi * (lambdaOf 0 w * 180 / Real.pi) / 180 = lambdaOf 0 w by field_simp, l1]
  · rw [show Real.pi * (lambdaOf 0 w * 180 / Real.pi) / 180 = lambdaOf 0 w by field_simp, l2]
  · rw [le_div_iff₀ hpi]; nlinarith
  · rw [div_le_iff₀ hpi]; nlinarith

/-- A point of an arc with the longitude of its beginning is its beginning. -/
theorem at_beginning {s : Vec.Seg} (hs : Proper s) {w : V3} (hw : OnArc s w) (hl : HasLon w s.a.x) :
    ∃ c : ℝ, 0 < c ∧ w.x = c * (vec s.a).x ∧ w.y = c * (vec s.a).y ∧ w.z = c * (vec s.a).z := by
  have hr := r_pos_of_hasLon hl
  obtain ⟨c, d, hc, hd, h1, h2, h3⟩ := hw
  obtain ⟨ρ, hρ, wx, wy⟩ := hl
  have hz : (vec s.a).x * (vec s.b).y - (vec s.a).y * (vec s.b).x ≠ 0 := normal_z hs
  have e := (coeff_of h1 h2).2
  have e0 : (vec s.a).x * w.y - (vec s.a).y * w.x = 0 := by
    rw [wx, wy, vec_eq]; dsimp only; ring
  rw [e0] at e
  have d0 : d = 0 := (mul_eq_zero.1 e).resolve_right hz
  rw [d0] at h1 h2 h3
  have c0 : c ≠ 0 := by
    intro h
    rw [h] at h1 h2
    unfold V3.r at hr
    rw [h1, h2] at hr
    simp at hr
  exact ⟨c, lt_of_le_of_ne hc (Ne.symm c0), by linarith, by linarith, by linarith⟩

theorem at_end {s : Vec.Seg} (hs : Proper s) {w : V3} (hw : OnArc s w) (hl : HasLon w s.b.x) :
    ∃ c : ℝ, 0 < c ∧ w.x = c * (vec s.b).x ∧ w.y = c * (vec s.b).y ∧ w.z = c * (vec s.b).z :=
  at_beginning (proper_flip hs) ((onArc_flip s w).2 hw) hl

theorem vec_norm (p : Pt) : (vec p).x ^ 2 + (vec p).y ^ 2 + (vec p).z ^ 2 = 1 := by
  rw [vec_eq]
  dsimp only
  have h1 := Real.cos_sq_add_sin_sq (Real.pi * p.x / 180)
  have h2 := Real.cos_sq_add_sin_sq (Real.pi * p.y / 180)
  linear_combination Real.cos (Real.pi * p.y / 180) ^ 2 * h1 + h2

/-- Vertices of the same longitude in the same direction are equal. -/
theorem vertex_eq {p q : Pt} (hp : -90 < p.y ∧ p.y < 90) (hq : -90 < q.y ∧ q.y < 90) (hx : p.x = q.x) {w : V3} {c d : ℝ}
    (hc : 0 < c) (hd : 0 < d) (h1 : w.x = c * (vec p).x ∧ w.y = c * (vec p).y ∧ w.z = c * (vec p).z)
    (h2 : w.x = d * (vec q).x ∧ w.y = d * (vec q).y ∧ w.z = d * (vec q).z) : p = q := by
  have n1 := vec_norm p
  have n2 := vec_norm q
  have e1 : w.x ^ 2 + w.y ^ 2 + w.z ^ 2 = c ^ 2 := by
    rw [h1.1, h1.2.1, h1.2.2]; linear_combination c ^ 2 * n1
  have e2 : w.x ^ 2 + w.y ^ 2 + w.z ^ 2 = d ^ 2 := by
    rw [h2.1, h2.2.1, h2.2.2]; linear_combination d ^ 2 * n2
  have hcd : c = d := by
    have : c ^ 2 = d ^ 2 := by rw [← e1, e2]
    exact (sq_eq_sq₀ hc.le hd.le).1 this
  have hz : (vec p).z = (vec q).z := by
    apply mul_left_cancel₀ hc.ne'
    rw [← h1.2.2, h2.2.2, hcd]
  rw [vec_eq, vec_eq] at hz
  dsimp only at hz
  have hpi := Real.pi_pos
  have r1 : (-90 : ℝ) < p.y := by exact_mod_cast hp.1
  have r2 : (p.y : ℝ) < 90 := by exact_mod_cast hp.2
  have r3 : (-90 : ℝ) < q.y := by exact_mod_cast hq.1
  have r4 : (q.y : ℝ) < 90 := by exact_mod_cast hq.2
  have := Real.injOn_sin (x₁ := Real.pi * p.y / 180) (x₂ := Real.pi * q.y / 180) ⟨by nlinarith, by nlinarith⟩ ⟨by nlinarith, by nlinarith⟩ hz
  have hy : (p.y : ℝ) = q.y := by
    have : Real.pi * (p.y : ℝ) = Real.pi * q.y := by linarith
    exact mul_left_cancel₀ hpi.ne' this
  obtain ⟨px, py⟩ := p
  obtain ⟨qx, qy⟩ := q
  simp only [Karta.Vec.P2.mk.injEq]
  exact ⟨hx, by exact_mod_cast hy⟩

theorem arc_r_pos {s : Vec.Seg} (hs : Proper s) {w : V3} (hw : OnArc s w) (h0 : ¬ (w.x = 0 ∧ w.y = 0 ∧ w.z = 0)) : 0 < w.r :=
  r_pos_of_perp (normal_z hs) (onArc_perp hw) h0

/-- Arcs that meet have ranges of longitude that overlap in more than a point, unless they have a vertex in common. -/
theorem meet_overlap {s r : Vec.Seg} (hs : Proper s) (hr : Proper r) (hv : s.a ≠ r.a ∧ s.a ≠ r.b ∧ s.b ≠ r.a ∧ s.b ≠ r.b)
    (h : ArcsMeet s r) : min s.a.x s.b.x < max r.a.x r.b.x := by
  obtain ⟨w, h0, w1, w2⟩ := h
  obtain ⟨l, hl, l1, l2⟩ := has_lon (arc_r_pos hs w1 h0)
  have b1 := (arc_iff hs hl l1 l2 (onArc_perp w1)).2 w1
  have b2 := (arc_iff hr hl l1 l2 (onArc_perp w2)).2 w2
  unfold betweenInc at b1 b2
  have key : ((min s.a.x s.b.x : ℚ) : ℝ) ≤ l := by push_cast; exact b1.1
  have key2 : l ≤ ((max r.a.x r.b.x : ℚ) : ℝ) := by push_cast; exact b2.2
  have hle : min s.a.x s.b.x ≤ max r.a.x r.b.x := by exact_mod_cast le_trans key key2
  refine lt_of_le_of_ne hle ?_
  intro heq
  have e1 : l = ((min s.a.x s.b.x : ℚ) : ℝ) := le_antisymm (by rw [heq]; exact key2) key
  have e2 : l = ((max r.a.x r.b.x : ℚ) : ℝ) := by rw [e1, heq]
  have hS : ∃ p, (p = s.a ∨ p = s.b) ∧ (l = (p.x : ℝ)) ∧ ∃ c : ℝ, 0 < c ∧ w.x = c * (vec p).x ∧ w.y = c * (vec p).y ∧ w.z = c * (vec p).z := by
    rcases le_total s.a.x s.b.x with h | h
    · rw [min_eq_left h] at e1
      exact ⟨s.a, Or.inl rfl, e1, at_beginning hs w1 (by rw [← e1]; exact hl)⟩
    · rw [min_eq_right h] at e1
      exact ⟨s.b, Or.inr rfl, e1, at_end hs w1 (by rw [← e1]; exact hl)⟩
  have hR : ∃ p, (p = r.a ∨ p = r.b) ∧ (l = (p.x : ℝ)) ∧ ∃ c : ℝ, 0 < c ∧ w.x = c * (vec p).x ∧ w.y = c * (vec p).y ∧ w.z = c * (vec p).z := by
    rcases le_total r.a.x r.b.x with h | h
    · rw [max_eq_right h] at e2
      exact ⟨r.b, Or.inr rfl, e2, at_end hr w2 (by rw [← e2]; exact hl)⟩
    · rw [max_eq_left h] at e2
      exact ⟨r.a, Or.inl rfl, e2, at_beginning hr w2 (by rw [← e2]; exact hl)⟩
  obtain ⟨p, hp, px, c, hc, g1⟩ := hS
  obtain ⟨q, hq, qx, d, hd, g2⟩ := hR
  have hx : p.x = q.x := by exact_mod_cast px.symm.trans qx
  have hpy : -90 < p.y ∧ p.y < 90 := by
    rcases hp with rfl | rfl
    · exact hs.ay
    · exact hs.by_
  have hqy : -90 < q.y ∧ q.y < 90 := by
    rcases hq with rfl | rfl
    · exact hr.ay
    · exact hr.by_
  have hpq := vertex_eq hpy hqy hx hc hd g1 g2
  obtain ⟨v1, v2, v3, v4⟩ := hv
  rcases hp with rfl | rfl <;> rcases hq with rfl | rfl
  · exact v1 hpq
  · exact v2 hpq
  · exact v3 hpq
  · exact v4 hpq

/-- A meridional segment and another one that meet: the meridian is in the range of the other. -/
theorem meet_meridian {v s : Vec.Seg} (hv : Meridional v) (hs : Proper s) (h : ArcsMeet v s) :
    min s.a.x s.b.x ≤ v.a.x ∧ v.a.x ≤ max s.a.x s.b.x := by
  obtain ⟨w, h0, w1, w2⟩ := h
  have hl := meridional_lon hv w1 h0
  have l1 : (-180 : ℝ) ≤ v.a.x := by exact_mod_cast hv.lon.1.le
  have l2 : (v.a.x : ℝ) ≤ 180 := by exact_mod_cast hv.lon.2.le
  have b := (arc_iff hs hl l1 l2 (onArc_perp w2)).2 w2
  unfold betweenInc at b
  exact ⟨by exact_mod_cast b.1, by exact_mod_cast b.2⟩

theorem meet_meridians {v u : Vec.Seg} (hv : Meridional v) (hu : Meridional u) (h : ArcsMeet v u) : v.a.x = u.a.x := by
  obtain ⟨w, h0, w1, w2⟩ := h
  have h1 : (-180 : ℝ) ≤ v.a.x := by exact_mod_cast hv.lon.1.le
  have h2 : (v.a.x : ℝ) < 180 := by exact_mod_cast hv.lon.2
  have h3 : (-180 : ℝ) ≤ u.a.x := by exact_mod_cast hu.lon.1.le
  have h4 : (u.a.x : ℝ) < 180 := by exact_mod_cast hu.lon.2
  exact_mod_cast lon_unique (meridional_lon hv w1 h0) (meridional_lon hu w2 h0) h1 h2 h3 h4

/-! ## The result -/

theorem hit_iff {as bs : List Pt} (ha : OneWay as) (hb : OneWay bs) (hg : General as bs) (hf : NoneFar as bs) {s r : Vec.Seg}
    (hs : s ∈ segsOf false as) (hr : r ∈ segsOf false bs) (h1 : s.a.x ≠ s.b.x) (h2 : r.a.x ≠ r.b.x) :
    (pairHit s r = true ↔ ArcsMeet s r) ∧ (pairHit r s = true ↔ ArcsMeet s r) := by
  have hd := hg.circles s hs r hr h1 h2
  obtain ⟨f1, f2⟩ := hf.pair s hs r hr
  refine ⟨C137_pair_partial (proper_of ha hs h1) (proper_of hb hr h2) hd f1, ?_⟩
  rw [arcsMeet_symm]
  exact C137_pair_partial (proper_of hb hr h2) (proper_of ha hs h1) (different_symm hd) f2

theorem found_iff {as bs : List Pt} (ha : OneWay as) (hb : OneWay bs) (hg : General as bs) (hf : NoneFar as bs) :
    Found verticalHitSph (fun s r => pairHit s.seg r.seg) (colored false as false bs) ↔ LinesMeet as bs := by
  constructor
  · rintro (⟨s, hs, t, ht, a1, a2, a3, -, -, a6⟩ | ⟨v, hv, s, hs, a1, a2, a3, a4, a5⟩)
    · rcases mem_colored.1 hs with ⟨c1, m1⟩ | ⟨c1, m1⟩ <;> rcases mem_colored.1 ht with ⟨c2, m2⟩ | ⟨c2, m2⟩
      · rw [c1, c2] at a3; exact absurd rfl a3
      · exact ⟨_, m1, _, m2, (hit_iff ha hb hg hf m1 m2 a1 a2).1.1 a6⟩
      · exact ⟨_, m2, _, m1, (hit_iff ha hb hg hf m2 m1 a2 a1).2.1 a6⟩
      · rw [c1, c2] at a3; exact absurd rfl a3
    · have hcol : v.color ≠ s.color := by
        intro h
        unfold verticalHitSph at a5
        rw [if_pos h] at a5
        cases a5
      have a1' : v.seg.a.x = v.seg.b.x := not_not.1 a1
      rcases mem_colored.1 hv with ⟨c1, m1⟩ | ⟨c1, m1⟩ <;> rcases mem_colored.1 hs with ⟨c2, m2⟩ | ⟨c2, m2⟩
      · rw [c1, c2] at hcol; exact absurd rfl hcol
      · exact ⟨_, m1, _, m2, (C137_meridian_partial hcol (meridional_of ha m1 a1') (proper_of hb m2 a2) a3 a4.le
          (hf.meridianB _ m1 _ m2 a1')).1 a5⟩
      · exact ⟨_, m2, _, m1, arcsMeet_symm.1 ((C137_meridian_partial hcol (meridional_of hb m1 a1') (proper_of ha m2 a2) a3 a4.le
          (hf.meridianA _ m2 _ m1 a1')).1 a5)⟩
      · rw [c1, c2] at hcol; exact absurd rfl hcol
  · rintro ⟨s, hs, r, hr, h⟩
    have cs : (⟨s, false⟩ : CSeg) ∈ colored false as false bs := mem_colored.2 (Or.inl ⟨rfl, hs⟩)
    have cr : (⟨r, true⟩ : CSeg) ∈ colored false as false bs := mem_colored.2 (Or.inr ⟨rfl, hr⟩)
    obtain ⟨ms1, ms2⟩ := segs_mem hs
    obtain ⟨mr1, mr2⟩ := segs_mem hr
    by_cases s1 : s.a.x = s.b.x
    · have hm := meridional_of ha hs s1
      by_cases r1 : r.a.x = r.b.x
      · exact absurd (meet_meridians hm (meridional_of hb hr r1) h).symm (hg.meridianA s hs s1 _ mr1)
      · obtain ⟨g1, g2⟩ := meet_meridian hm (proper_of hb hr r1) h
        have g3 : s.a.x < max r.a.x r.b.x := by
          refine lt_of_le_of_ne g2 ?_
          intro he
          rcases le_total r.a.x r.b.x with h' | h'
          · rw [max_eq_right h'] at he; exact hg.meridianA s hs s1 _ mr2 he.symm
          · rw [max_eq_left h'] at he; exact hg.meridianA s hs s1 _ mr1 he.symm
        refine Or.inr ⟨⟨s, false⟩, cs, ⟨r, true⟩, cr, not_not.2 s1, r1, g1, g3, ?_⟩
        exact (C137_meridian_partial (v := ⟨s, false⟩) (s := ⟨r, true⟩) (by simp) hm (proper_of hb hr r1) g1 g2
          (hf.meridianB _ hs _ hr s1)).2 h
    · by_cases r1 : r.a.x = r.b.x
      · have hm := meridional_of hb hr r1
        have h' := arcsMeet_symm.1 h
        obtain ⟨g1, g2⟩ := meet_meridian hm (proper_of ha hs s1) h'
        have g3 : r.a.x < max s.a.x s.b.x := by
          refine lt_of_le_of_ne g2 ?_
          intro he
          rcases le_total s.a.x s.b.x with h' | h'
          · rw [max_eq_right h'] at he; exact hg.meridianB r hr r1 _ ms2 he.symm
          · rw [max_eq_left h'] at he; exact hg.meridianB r hr r1 _ ms1 he.symm
        refine Or.inr ⟨⟨r, true⟩, cr, ⟨s, false⟩, cs, not_not.2 r1, s1, g1, g3, ?_⟩
        exact (C137_meridian_partial (v := ⟨r, true⟩) (s := ⟨s, false⟩) (by simp) hm (proper_of ha hs s1) g1 g2
          (hf.meridianA _ hs _ hr r1)).2 h'
      · have ps := proper_of ha hs s1
        have pr := proper_of hb hr r1
        have v1 : ∀ p ∈ as, ∀ q ∈ bs, p ≠ q := by rintro p hp q hq rfl; exact hg.vertex p hp hq
        refine Or.inl ⟨⟨s, false⟩, cs, ⟨r, true⟩, cr, s1, r1, by simp, ?_, ?_, (hit_iff ha hb hg hf hs hr s1 r1).1.2 h⟩
        · exact meet_overlap ps pr ⟨v1 _ ms1 _ mr1, v1 _ ms1 _ mr2, v1 _ ms2 _ mr1, v1 _ ms2 _ mr2⟩ h
        · exact meet_overlap pr ps ⟨(v1 _ ms1 _ mr1).symm, (v1 _ ms2 _ mr1).symm, (v1 _ ms1 _ mr2).symm, (v1 _ ms2 _ mr2).symm⟩
            (arcsMeet_symm.1 h)

theorem queue_eq {as bs : List Pt} (ha : OneWay as) (hb : OneWay bs) :
    queueSph false as false bs = batches (eventQueue (colored false as false bs)) := by
  unfold queueSph
  rw [reduce_map ha.lon, reduce_map hb.lon]

theorem hits_symm {as bs : List Pt} (ha : OneWay as) (hb : OneWay bs) (hg : General as bs) (hf : NoneFar as bs) :
    ∀ s ∈ colored false as false bs, ∀ t ∈ colored false as false bs, s.Slanted → t.Slanted → s.color ≠ t.color →
      pairHit s.seg t.seg = pairHit t.seg s.seg := by
  intro s hs t ht a1 a2 a3
  rcases mem_colored.1 hs with ⟨c1, m1⟩ | ⟨c1, m1⟩ <;> rcases mem_colored.1 ht with ⟨c2, m2⟩ | ⟨c2, m2⟩
  · rw [c1, c2] at a3; exact absurd rfl a3
  · obtain ⟨h1, h2⟩ := hit_iff ha hb hg hf m1 m2 a1 a2
    rw [Bool.eq_iff_iff, h1, h2]
  · obtain ⟨h1, h2⟩ := hit_iff ha hb hg hf m2 m1 a2 a1
    rw [Bool.eq_iff_iff, h1, h2]
  · rw [c1, c2] at a3; exact absurd rfl a3

/-- **C138 (part).**  For two lines in general position that each go one way around the globe, the test never fails and tells
exactly whether the lines have a point in common.
Missing: lines that turn back (the two theorems below show that the answer can then be wrong either way), lines that reach
the meridian 180, vertices in common, and crossings computed within a hair of longitude 90 or -90 on the far side. -/
theorem C138_one_way_partial {as bs : List Pt} (ha : OneWay as) (hb : OneWay bs) (hg : General as bs) (hf : NoneFar as bs) :
    (intersectsSph false as false bs = .ok true ∧ LinesMeet as bs) ∨
    (intersectsSph false as false bs = .ok false ∧ ¬ LinesMeet as bs) := by
  unfold intersectsSph
  rw [queue_eq ha hb, sweepInsertSph_front, ← found_iff ha hb hg hf]
  rcases sweepSph_finds front_inserts (vert := verticalHitSph) (single_colored ha hb) (hits_symm ha hb hg hf) (nodup_colored ha hb) with h | h
  · exact Or.inl ⟨h, sweepSph_front (single_colored ha hb) (nodup_colored ha hb) h⟩
  · exact Or.inr h

/-- **C138 (part).**  No crossing of such lines is missed, in whatever places of the sweep line the segments are put: the
answer does not hang on the heights, which are computed from the direction of a pole. -/
theorem C138_found_partial {as bs : List Pt} (ha : OneWay as) (hb : OneWay bs) (hg : General as bs) (hf : NoneFar as bs)
    (ins : ℚ → CSeg → List CSeg → List CSeg) (hi : ∀ x s q, (ins x s q).Perm (s :: q)) (hm : LinesMeet as bs) :
    sweepSph ins verticalHitSph (fun s r => pairHit s.seg r.seg) (queueSph false as false bs) [] = .ok true := by
  rw [queue_eq ha hb]
  rcases sweepSph_finds (ins := ins) hi (vert := verticalHitSph) (single_colored ha hb) (hits_symm ha hb hg hf) (nodup_colored ha hb) with h | h
  · exact h
  · exact absurd ((found_iff ha hb hg hf).2 hm) h.2

end Karta.Geod.Cross
