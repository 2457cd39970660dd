import Verif.Vec.MultiQuery
import Verif.Vec.WindProps
import Verif.Vec.SweepProps
import Verif.Vec.RTreeTwo

/-!
Properties C99 (parts within a polygon) and C100 (parts touching a line or polygon).
-/

namespace Karta.Multi
open Karta Karta.Vec Karta.RTree

/-! ### Specification -/

/-- The point is a vertex of the part or lies on one of its segments. -/
def Part.Has (m : Part) (p : Pt) : Prop := p ∈ m.pts ∨ ∃ s, IsSegment m.ring m.pts s ∧ s.On p

/-- The boundary of the part and the line or ring have a point in common. -/
def Part.MeetsLine (m : Part) (ring : Bool) (ps : List Pt) : Prop := Sweep.Meet ring ps m.ring m.pts

/-- The part stays clear of the boundaries of the sub-polygons. -/
def Part.AvoidsHoles (m : Part) (subs : List Poly) : Prop :=
  ∀ s ∈ subs, ∀ a b, s.Side a b → ∀ g, IsSegment m.ring m.pts g → ¬ Meets g.a g.b a b

/-- Neither geometry crosses itself, and they do not meet in vertices: what `intersects` needs to be right (C36). -/
structure Clean (ring : Bool) (ps : List Pt) (m : Part) : Prop where
  line : Sweep.NoSelfCrossing ring ps
  part : Sweep.NoSelfCrossing m.ring m.pts
  proper : Sweep.ProperMeetings ring ps m.ring m.pts

/-- The query ends with the parts at the positions `r`. -/
def Gives (q : Nat → Except Err (Option (List Nat))) (r : List Nat) : Prop := ∃ n, ∀ k, q (n + k) = .ok (some r)

/-- The smallest boxes around the two vertex lists share an area. -/
def BoxesMeet (ps qs : List Pt) : Prop :=
  ∃ x y : ℚ, (∃ p ∈ ps, p.x < x) ∧ (∃ p ∈ ps, x < p.x) ∧ (∃ p ∈ ps, p.y < y) ∧ (∃ p ∈ ps, y < p.y) ∧
    (∃ p ∈ qs, p.x < x) ∧ (∃ p ∈ qs, x < p.x) ∧ (∃ p ∈ qs, p.y < y) ∧ (∃ p ∈ qs, y < p.y)

/-- The part is neither horizontal nor vertical throughout. -/
def Part.Wide (m : Part) : Prop := (∃ p ∈ m.pts, ∃ q ∈ m.pts, p.x < q.x) ∧ ∃ p ∈ m.pts, ∃ q ∈ m.pts, p.y < q.y

/-- The index of the parts is intact: there are at most fifty parts, or all divisions of nodes went well while it was built and its
leaves fit under one root (see `C26_two_levels_partial`). -/
def Indexed (ms : List Part) : Prop :=
  ms.length ≤ 50 ∨ (RTree.Clean 50 (ms.map fun m => boxOf m.first m.rest) ∧
    ∀ t, build 50 (ms.map fun m => boxOf m.first m.rest) = .ok t → t.1.length ≤ 51)

/-! ### Helpers -/

theorem keep_ok {ms : List Part} {test : Part → Except Err Bool} {f : Part → Prop} {is : List Nat}
    (hm : ∀ i ∈ is, ∃ m, ms[i]? = some m ∧ ∃ b, test m = .ok b ∧ (b = true ↔ f m)) :
    ∃ r, keep ms test is = .ok r ∧ r.Sublist is ∧ ∀ i, i ∈ r ↔ i ∈ is ∧ ∃ m, ms[i]? = some m ∧ f m := by
  induction is with
  | nil => exact ⟨[], rfl, List.Sublist.slnil, by simp⟩
  | cons i is ih =>
    obtain ⟨m, hi, b, hb, hf⟩ := hm i (by simp)
    obtain ⟨r, hr, hs, hmem⟩ := ih fun j hj => hm j (by simp [hj])
    refine ⟨if b then i :: r else r, ?_, ?_, ?_⟩
    · rw [keep, hi]
      simp only [hb, hr]
    · cases b with
      | true => exact hs.cons_cons i
      | false => exact hs.cons i
    · intro j
      cases b with
      | true =>
        simp only [if_true, List.mem_cons, hmem]
        constructor
        · rintro (rfl | ⟨h1, h2⟩)
          · exact ⟨Or.inl rfl, m, hi, hf.1 rfl⟩
          · exact ⟨Or.inr h1, h2⟩
        · rintro ⟨rfl | h1, h2⟩
          · exact Or.inl rfl
          · exact Or.inr ⟨h1, h2⟩
      | false =>
        simp only [Bool.false_eq_true, if_false, hmem, List.mem_cons]
        constructor
        · rintro ⟨h1, h2⟩; exact ⟨Or.inr h1, h2⟩
        · rintro ⟨rfl | h1, m', e, h2⟩
          · rw [hi] at e; cases e
            exact absurd (hf.2 h2) (by simp)
          · exact ⟨h1, m', e, h2⟩

theorem keep_sound {ms : List Part} {test : Part → Except Err Bool} {is r : List Nat} (h : keep ms test is = .ok r) :
    ∀ i ∈ r, i ∈ is ∧ ∃ m, ms[i]? = some m ∧ test m = .ok true := by
  induction is generalizing r with
  | nil => rw [keep] at h; cases h; simp
  | cons i is ih =>
    rw [keep] at h
    cases hi : ms[i]? with
    | none => rw [hi] at h; simp at h
    | some m =>
      rw [hi] at h
      simp only at h
      cases hb : test m with
      | error e => rw [hb] at h; simp at h
      | ok b =>
        rw [hb] at h
        simp only at h
        cases hr : keep ms test is with
        | error e => rw [hr] at h; simp at h
        | ok r' =>
          rw [hr] at h
          simp only [Except.ok.injEq] at h
          subst h
          intro j hj
          cases b with
          | true =>
            simp only [if_true, List.mem_cons] at hj
            rcases hj with rfl | hj
            · exact ⟨by simp, m, hi, hb⟩
            · exact ⟨by simp [(ih hr j hj).1], (ih hr j hj).2⟩
          | false =>
            simp only [Bool.false_eq_true, if_false] at hj
            exact ⟨by simp [(ih hr j hj).1], (ih hr j hj).2⟩

theorem seg_mem {ring : Bool} {ps : List Pt} {s : Seg} (hs : IsSegment ring ps s) : s.a ∈ ps ∧ s.b ∈ ps := by
  rcases hs with ⟨i, h1, h2⟩ | ⟨-, h1, h2⟩
  · exact ⟨List.mem_of_getElem? h1, List.mem_of_getElem? h2⟩
  · exact ⟨List.mem_of_getLast? h1, List.mem_of_head? h2⟩

/-- A part that meets no boundary is on one side throughout. -/
theorem part_const {ring : List Pt} {subs : List Poly} {m : Part} (hm : ¬ m.MeetsLine true ring) (hh : m.AvoidsHoles subs)
    {p : Pt} (hp : m.Has p) : (Poly.mk ring subs).contains p = (Poly.mk ring subs).contains m.first := by
  have hseg : ∀ s, IsSegment m.ring m.pts s → ∀ p, s.On p → (Poly.mk ring subs).contains p = (Poly.mk ring subs).contains s.a := by
    intro s hs p hp
    apply poly_const
    intro a b hab hmt
    obtain ⟨t, u, t0, t1, u0, u1, ex, ey⟩ := hmt
    obtain ⟨w, w0, w1, px, py⟩ := hp
    have hon : s.On ⟨s.a.x + t * (p.x - s.a.x), s.a.y + t * (p.y - s.a.y)⟩ := by
      refine ⟨t * w, mul_nonneg t0 w0, mul_le_one₀ t1 w0 w1, ?_, ?_⟩
      · simp only; rw [px]; ring
      · simp only; rw [py]; ring
    cases hab with
    | outer he =>
      apply hm
      refine ⟨⟨a, b⟩, s, _, ?_, hs, ?_, hon⟩
      · rcases he with ⟨i, h1, h2⟩ | ⟨h1, h2⟩
        · exact Or.inl ⟨i, h1, h2⟩
        · exact Or.inr ⟨rfl, h1, h2⟩
      · exact ⟨u, u0, u1, ex, ey⟩
    | inner hq hs' =>
      obtain ⟨v, v0, v1, vx, vy⟩ := hon
      exact hh _ hq a b hs' s hs ⟨v, u, v0, v1, u0, u1, by rw [← vx]; exact ex, by rw [← vy]; exact ey⟩
  have hvert : ∀ (i : Nat) (q : Pt), m.pts[i]? = some q → (Poly.mk ring subs).contains q = (Poly.mk ring subs).contains m.first := by
    intro i
    induction i with
    | zero => intro q h; simp [Part.pts] at h; rw [h]
    | succ i ih =>
      intro q h
      have hlt : i < m.pts.length := by
        have := (List.getElem?_eq_some_iff.1 h).1
        omega
      obtain ⟨a, ha⟩ : ∃ a, m.pts[i]? = some a := ⟨_, List.getElem?_eq_getElem hlt⟩
      rw [← ih a ha]
      exact hseg ⟨a, q⟩ (Or.inl ⟨i, ha, h⟩) q ⟨1, zero_le_one, le_refl _, by simp, by simp⟩
  rcases hp with hp | ⟨s, hs, hp⟩
  · obtain ⟨i, hi⟩ := List.mem_iff_getElem?.1 hp
    exact hvert i p hi
  · rw [hseg s hs p hp]
    obtain ⟨i, hi⟩ := List.mem_iff_getElem?.1 (seg_mem hs).1
    exact hvert i s.a hi

theorem boxOf_spec (p : Pt) (ps : List Pt) :
    (∀ q ∈ p :: ps, (boxOf p ps).xmin ≤ q.x ∧ q.x ≤ (boxOf p ps).xmax ∧ (boxOf p ps).ymin ≤ q.y ∧ q.y ≤ (boxOf p ps).ymax) ∧
    (∃ q ∈ p :: ps, q.x = (boxOf p ps).xmin) ∧ (∃ q ∈ p :: ps, q.x = (boxOf p ps).xmax) ∧
    (∃ q ∈ p :: ps, q.y = (boxOf p ps).ymin) ∧ (∃ q ∈ p :: ps, q.y = (boxOf p ps).ymax) := by
  obtain ⟨b, hb, ht, h1, h2, h3, h4⟩ := C32_bbox_tight (p :: ps) (by simp)
  have e : b = ps.foldl bboxStep ⟨p.x, p.y, p.x, p.y⟩ := by
    simp only [bbox, Option.some.injEq] at hb; exact hb.symm
  subst e
  exact ⟨ht.1, h1, h2, h3, h4⟩

theorem meet_boxOf (p : Pt) (ps : List Pt) (q : Pt) (qs : List Pt) :
    RTree.Meet (boxOf p ps) (boxOf q qs) ↔ BoxesMeet (p :: ps) (q :: qs) := by
  obtain ⟨k, ⟨a1, m1, e1⟩, ⟨a2, m2, e2⟩, ⟨a3, m3, e3⟩, ⟨a4, m4, e4⟩⟩ := boxOf_spec p ps
  obtain ⟨k', ⟨b1, n1, f1⟩, ⟨b2, n2, f2⟩, ⟨b3, n3, f3⟩, ⟨b4, n4, f4⟩⟩ := boxOf_spec q qs
  constructor
  · rintro ⟨x, y, ⟨h1, h2, h3, h4⟩, h5, h6, h7, h8⟩
    exact ⟨x, y, ⟨a1, m1, by linarith⟩, ⟨a2, m2, by linarith⟩, ⟨a3, m3, by linarith⟩, ⟨a4, m4, by linarith⟩,
      ⟨b1, n1, by linarith⟩, ⟨b2, n2, by linarith⟩, ⟨b3, n3, by linarith⟩, ⟨b4, n4, by linarith⟩⟩
  · rintro ⟨x, y, ⟨c1, o1, g1⟩, ⟨c2, o2, g2⟩, ⟨c3, o3, g3⟩, ⟨c4, o4, g4⟩, ⟨d1, r1, s1⟩, ⟨d2, r2, s2⟩, ⟨d3, r3, s3⟩, ⟨d4, r4, s4⟩⟩
    refine ⟨x, y, ⟨?_, ?_, ?_, ?_⟩, ?_, ?_, ?_, ?_⟩
    · linarith [(k c1 o1).1]
    · linarith [(k c2 o2).2.1]
    · linarith [(k c3 o3).2.2.1]
    · linarith [(k c4 o4).2.2.2]
    · linarith [(k' d1 r1).1]
    · linarith [(k' d2 r2).2.1]
    · linarith [(k' d3 r3).2.2.1]
    · linarith [(k' d4 r4).2.2.2]

theorem Indexed.search {ms : List Part} (hn : Indexed ms) :
    ∃ t, build 50 (ms.map fun m => boxOf m.first m.rest) = .ok t ∧ ∀ (q : RBox) (mx : Int), mx ≠ 0 →
      ∃ r : List Nat, Returns (fun n => searchOverlapping n t q mx) r ∧ r.Nodup ∧
        ∀ i, i ∈ r ↔ ∃ b, (ms.map fun m => boxOf m.first m.rest)[i]? = some b ∧ RTree.Meet q b := by
  rcases hn with hn | ⟨h1, h2⟩
  · exact C26_small_partial (M := 50) (by omega) (by simpa using hn)
  · obtain ⟨t, ht⟩ := (C73_capacity 50 (ms.map fun m => boxOf m.first m.rest)).2 (by omega)
    exact ⟨t, ht, fun q mx hm => C26_two_levels_partial ht h1 (h2 t ht) q mx hm⟩

/-- Queries with an intact index. -/
theorem query_small {ms : List Part} (hn : Indexed ms) {ring : List Pt} (hr : ring ≠ []) {test : Part → Except Err Bool} {f : Part → Prop}
    (ht : ∀ m ∈ ms, ∃ b, test m = .ok b ∧ (b = true ↔ f m)) :
    ∃ r, Gives (fun n => query n ms ring test) r ∧ r.Nodup ∧
      ∀ i, i ∈ r ↔ ∃ m, ms[i]? = some m ∧ BoxesMeet ring m.pts ∧ f m := by
  cases ring with
  | nil => exact absurd rfl hr
  | cons p ps =>
    obtain ⟨t, hb, hq⟩ := hn.search
    obtain ⟨is, ⟨n, hs⟩, hnd, hmem⟩ := hq (boxOf p ps) (-1) (by omega)
    have hmem' : ∀ i, i ∈ is ↔ ∃ m, ms[i]? = some m ∧ BoxesMeet (p :: ps) m.pts := by
      intro i
      rw [hmem, List.getElem?_map]
      constructor
      · rintro ⟨b, h1, h2⟩
        cases hm : ms[i]? with
        | none => rw [hm] at h1; simp at h1
        | some m =>
          rw [hm] at h1
          simp only [Option.map_some, Option.some.injEq] at h1
          subst h1
          exact ⟨m, rfl, (meet_boxOf _ _ _ _).1 h2⟩
      · rintro ⟨m, h1, h2⟩
        exact ⟨boxOf m.first m.rest, by rw [h1]; rfl, (meet_boxOf _ _ _ _).2 h2⟩
    obtain ⟨r, h1, h2, h3⟩ := keep_ok (ms := ms) (test := test) (f := f) (is := is) (by
      intro i hi
      obtain ⟨m, h1, -⟩ := (hmem' i).1 hi
      exact ⟨m, h1, ht m (List.mem_of_getElem? h1)⟩)
    refine ⟨r, ⟨n, fun k => ?_⟩, h2.nodup hnd, fun i => ?_⟩
    · unfold query overlapping
      simp only [hb, hs k, h1]
    · rw [h3, hmem']
      constructor
      · rintro ⟨⟨m, h1, h2⟩, m', h1', h4⟩
        rw [h1] at h1'; cases h1'
        exact ⟨m, h1, h2, h4⟩
      · rintro ⟨m, h1, h2, h4⟩
        exact ⟨⟨m, h1, h2⟩, m, h1, h4⟩

/-- What any query returns has passed the test. -/
theorem query_sound {ms : List Part} {ring : List Pt} {test : Part → Except Err Bool} {r : List Nat}
    (h : Gives (fun n => query n ms ring test) r) : ∀ i ∈ r, ∃ m, ms[i]? = some m ∧ BoxesMeet ring m.pts ∧ test m = .ok true := by
  cases ring with
  | nil => obtain ⟨n, hn⟩ := h; exact absurd (hn 0) (by simp [query])
  | cons p ps =>
    obtain ⟨t, hb⟩ := (C73_capacity 50 (ms.map fun m => boxOf m.first m.rest)).2 (by omega)
    obtain ⟨n, hn⟩ := h
    have key : ∀ k, ∃ is, searchOverlapping (n + k) t (boxOf p ps) (-1) = some is ∧ keep ms test is = .ok r := by
      intro k
      have := hn k
      unfold query overlapping at this
      simp only [hb] at this
      cases hs : searchOverlapping (n + k) t (boxOf p ps) (-1) with
      | none => rw [hs] at this; simp at this
      | some is =>
        rw [hs] at this
        simp only at this
        cases hk : keep ms test is with
        | error e => rw [hk] at this; simp at this
        | ok r' =>
          rw [hk] at this
          simp only [Except.ok.injEq, Option.some.injEq] at this
          subst this
          exact ⟨is, rfl, hk⟩
    obtain ⟨is, hs, hk⟩ := key 0
    have hret : Returns (fun n => searchOverlapping n t (boxOf p ps) (-1)) is := ⟨n, fun k => search_mono hs k⟩
    have hsound := C26_sound_partial hb hret
    intro i hi
    obtain ⟨h1, m, h2, h3⟩ := keep_sound hk i hi
    obtain ⟨b, h4, h5⟩ := hsound i h1
    rw [List.getElem?_map, h2] at h4
    simp only [Option.map_some, Option.some.injEq] at h4
    subst h4
    exact ⟨m, h2, (meet_boxOf _ _ _ _).1 h5, h3⟩

theorem withinTest_spec {ring : List Pt} {subs : List Poly} {m : Part} (hc : Clean true ring m) :
    ∃ b, withinTest ring subs m = .ok b ∧ (b = true ↔ (Poly.mk ring subs).contains m.first = true ∧ ¬ m.MeetsLine true ring) := by
  obtain ⟨r, hr, hm⟩ := Sweep.C36_method_partial true ring m.ring m.pts hc.line hc.part hc.proper
  unfold withinTest
  by_cases h : (Poly.mk ring subs).contains m.first = true
  · rw [if_pos h, hr]
    refine ⟨!r, rfl, ?_⟩
    unfold Part.MeetsLine
    rw [← hm]
    cases r <;> simp [h]
  · rw [if_neg h]
    exact ⟨false, rfl, by simp [h]⟩

/-! ### C99 -/

/-- C99, soundness, for any number of parts: every part that `within` returns lies in the polygon with all its points, and does not meet
the boundary, provided `intersects` is right about it and it stays clear of the sub-polygons' boundaries.  Missing: parts that cross holes, for
which it is false (`C99_violated_hole`). -/
theorem C99_sound_partial (ms : List Part) (ring : List Pt) (subs : List Poly) (r : List Nat)
    (h : Gives (fun n => within n ms ring subs) r) (hc : ∀ m ∈ ms, Clean true ring m) (hh : ∀ m ∈ ms, m.AvoidsHoles subs) :
    ∀ i ∈ r, ∃ m, ms[i]? = some m ∧ (∀ p, m.Has p → (Poly.mk ring subs).contains p = true) ∧ ¬ m.MeetsLine true ring := by
  intro i hi
  obtain ⟨m, h1, -, h2⟩ := query_sound h i hi
  have hmem := List.mem_of_getElem? h1
  obtain ⟨b, h3, h4⟩ := withinTest_spec (subs := subs) (hc m hmem)
  rw [h2] at h3
  cases h3
  obtain ⟨h5, h6⟩ := h4.1 rfl
  exact ⟨m, h1, fun p hp => by rw [part_const h6 (hh m hmem) hp, h5], h6⟩

/-- C99, exactness, if the index is intact: `within` ends and returns, each once, exactly the parts all of whose points are contained and
which do not meet the boundary, provided every part has a width and a height, stays clear of the holes' boundaries, and `intersects` is right
about it. -/
theorem C99_exact_partial (ms : List Part) (ring : List Pt) (subs : List Poly) (hn : Indexed ms)
    (hw : ∀ m ∈ ms, m.Wide) (hc : ∀ m ∈ ms, Clean true ring m) (hh : ∀ m ∈ ms, m.AvoidsHoles subs) (hr : ring ≠ []) :
    ∃ r, Gives (fun n => within n ms ring subs) r ∧ r.Nodup ∧
      ∀ i, i ∈ r ↔ ∃ m, ms[i]? = some m ∧ (∀ p, m.Has p → (Poly.mk ring subs).contains p = true) ∧ ¬ m.MeetsLine true ring := by
  obtain ⟨r, h1, h2, h3⟩ := query_small hn hr (fun m hm => withinTest_spec (subs := subs) (hc m hm))
  refine ⟨r, h1, h2, fun i => ?_⟩
  rw [h3]
  constructor
  · rintro ⟨m, h4, -, h5, h6⟩
    exact ⟨m, h4, fun p hp => by rw [part_const h6 (hh m (List.mem_of_getElem? h4)) hp, h5], h6⟩
  · rintro ⟨m, h4, h5, h6⟩
    refine ⟨m, h4, ?_, h5 _ (Or.inl (by simp [Part.pts])), h6⟩
    obtain ⟨⟨p, hp, q, hq, hx⟩, u, hu, v, hv, hy⟩ := hw m (List.mem_of_getElem? h4)
    have hbox : ∀ z ∈ m.pts, ∃ b, bbox ring = some b ∧ b.Contains z := by
      intro z hz
      cases hb : bbox ring with
      | none => exact absurd ((C32_bbox_empty ring).1 hb) hr
      | some b =>
        refine ⟨b, rfl, ?_⟩
        by_contra hnot
        have := h5 z (Or.inl hz)
        rw [Poly.contains, C38_outside_bbox z ring b hb hnot] at this
        simp at this
    obtain ⟨b, hb, -, t1, t2, t3, t4⟩ := C32_bbox_tight ring hr
    obtain ⟨a1, m1, e1⟩ := t1
    obtain ⟨a2, m2, e2⟩ := t2
    obtain ⟨a3, m3, e3⟩ := t3
    obtain ⟨a4, m4, e4⟩ := t4
    have hcont : ∀ z ∈ m.pts, b.Contains z := by
      intro z hz
      obtain ⟨b', h1, h2⟩ := hbox z hz
      rw [hb] at h1; cases h1
      exact h2
    refine ⟨(p.x + q.x) / 2, (u.y + v.y) / 2, ⟨a1, m1, ?_⟩, ⟨a2, m2, ?_⟩, ⟨a3, m3, ?_⟩, ⟨a4, m4, ?_⟩, ⟨p, hp, ?_⟩, ⟨q, hq, ?_⟩, ⟨u, hu, ?_⟩, ⟨v, hv, ?_⟩⟩
    · linarith [(hcont p hp).1]
    · linarith [(hcont q hq).2.1]
    · linarith [(hcont u hu).2.2.1]
    · linarith [(hcont v hv).2.2.2]
    all_goals linarith

/-- C99 is false for polygons with holes: this line runs across a hole and is returned. -/
theorem C99_violated_hole : ∃ (m : Part) (ring : List Pt) (hole : List Pt) (p : Pt),
    Gives (fun n => within n [m] ring [.mk hole []]) [0] ∧ m.Has p ∧ (Poly.mk ring [.mk hole []]).contains p = false := by
  refine ⟨⟨false, ⟨1, 1⟩, [⟨9, 8⟩]⟩, [⟨0, 0⟩, ⟨10, 0⟩, ⟨10, 10⟩, ⟨0, 10⟩], [⟨4, 3⟩, ⟨6, 3⟩, ⟨6, 7⟩, ⟨4, 7⟩], ⟨5, 9 / 2⟩, ⟨1, ?_⟩, ?_, ?_⟩
  · intro k
    obtain ⟨t, hb⟩ := (C73_capacity 50 ([⟨1, 1, 9, 8⟩])).2 (by omega)
    have hs : searchOverlapping 1 t ⟨0, 0, 10, 10⟩ (-1) = some [0] := by
      have := build_small (M := 50) (by omega) (bs := [⟨1, 1, 9, 8⟩]) (by simp)
      rw [hb] at this
      cases this
      decide +kernel
    have hbox1 : boxOf ⟨1, 1⟩ [⟨9, 8⟩] = ⟨1, 1, 9, 8⟩ := by decide +kernel
    have hbox2 : boxOf ⟨0, 0⟩ [⟨10, 0⟩, ⟨10, 10⟩, ⟨0, 10⟩] = ⟨0, 0, 10, 10⟩ := by decide +kernel
    unfold within query overlapping
    have hs' : searchOverlapping (1 + k) t ⟨0, 0, 10, 10⟩ (-1) = some [0] := search_mono hs k
    simp only [List.map_cons, List.map_nil, hbox1, hbox2, hb, hs']
    have ht : withinTest [⟨0, 0⟩, ⟨10, 0⟩, ⟨10, 10⟩, ⟨0, 10⟩] [.mk [⟨4, 3⟩, ⟨6, 3⟩, ⟨6, 7⟩, ⟨4, 7⟩] []] ⟨false, ⟨1, 1⟩, [⟨9, 8⟩]⟩ = .ok true := by
      decide +kernel
    have hk : keep [⟨false, ⟨1, 1⟩, [⟨9, 8⟩]⟩] (withinTest [⟨0, 0⟩, ⟨10, 0⟩, ⟨10, 10⟩, ⟨0, 10⟩] [.mk [⟨4, 3⟩, ⟨6, 3⟩, ⟨6, 7⟩, ⟨4, 7⟩] []]) [0] = .ok [0] := by
      unfold keep
      simp only [List.getElem?_cons_zero, ht]
      rfl
    simp only [hk]
  · exact Or.inr ⟨⟨⟨1, 1⟩, ⟨9, 8⟩⟩, Or.inl ⟨0, rfl, rfl⟩, 1 / 2, by norm_num, by norm_num, by norm_num, by norm_num⟩
  · decide +kernel

/-- C99 is false for horizontal and vertical lines: they are never returned. -/
theorem C99_violated_flat (ms : List Part) (ring : List Pt) (subs : List Poly) (r : List Nat)
    (h : Gives (fun n => within n ms ring subs) r) (i : Nat) (m : Part) (hi : ms[i]? = some m)
    (hf : (∀ p ∈ m.pts, p.x = m.first.x) ∨ ∀ p ∈ m.pts, p.y = m.first.y) : i ∉ r := by
  intro hmem
  obtain ⟨m', h1, h2, -⟩ := query_sound h i hmem
  rw [hi] at h1; cases h1
  obtain ⟨x, y, -, -, -, -, ⟨a, ha, ka⟩, ⟨b, hb, kb⟩, ⟨c, hc, kc⟩, ⟨d, hd, kd⟩⟩ := h2
  rcases hf with hf | hf
  · rw [hf a ha] at ka; rw [hf b hb] at kb; linarith
  · rw [hf c hc] at kc; rw [hf d hd] at kd; linarith

/-! ### C100 -/

theorem touchTest_spec {ring : List Pt} {subs : List Poly} {m : Part} (hc : Clean true ring m) (hh : m.AvoidsHoles subs) :
    ∃ b, touchTest ring subs m = .ok b ∧
      (b = true ↔ (∃ p, m.Has p ∧ (Poly.mk ring subs).contains p = true) ∨ m.MeetsLine true ring) := by
  obtain ⟨r, hr, hm⟩ := Sweep.C36_method_partial true ring m.ring m.pts hc.line hc.part hc.proper
  have hm' : r = true ↔ m.MeetsLine true ring := hm
  unfold touchTest
  by_cases h : (Poly.mk ring subs).contains m.first = true
  · rw [if_pos h]
    exact ⟨true, rfl, by simp only [true_iff]; exact Or.inl ⟨m.first, Or.inl (by simp [Part.pts]), h⟩⟩
  · rw [if_neg h]
    refine ⟨r, hr, hm'.trans ⟨Or.inr, ?_⟩⟩
    rintro (⟨p, hp, hin⟩ | k)
    · by_contra hno
      rw [part_const hno hh hp] at hin
      exact h hin
    · exact k

/-- C100 for polygons, if the index is intact: `touching` ends and returns, each once, exactly the parts whose bounding box shares an area
with that of the polygon and that have a point in the polygon or on its boundary, provided the parts stay clear of the holes' boundaries and `intersects`
is right about them. -/
theorem C100_polygon_partial (ms : List Part) (ring : List Pt) (subs : List Poly) (hn : Indexed ms)
    (hc : ∀ m ∈ ms, Clean true ring m) (hh : ∀ m ∈ ms, m.AvoidsHoles subs) (hr : ring ≠ []) :
    ∃ r, Gives (fun n => touchingPolygon n ms ring subs) r ∧ r.Nodup ∧
      ∀ i, i ∈ r ↔ ∃ m, ms[i]? = some m ∧ BoxesMeet ring m.pts ∧
        ((∃ p, m.Has p ∧ (Poly.mk ring subs).contains p = true) ∨ m.MeetsLine true ring) :=
  query_small hn hr fun m hm => touchTest_spec (hc m hm) (hh m hm)

/-- C100 for lines, if the index is intact. -/
theorem C100_line_partial (ms : List Part) (line : List Pt) (hn : Indexed ms) (hc : ∀ m ∈ ms, Clean false line m) (hr : line ≠ []) :
    ∃ r, Gives (fun n => touchingLine n ms line) r ∧ r.Nodup ∧
      ∀ i, i ∈ r ↔ ∃ m, ms[i]? = some m ∧ BoxesMeet line m.pts ∧ m.MeetsLine false line :=
  query_small hn hr fun m hm => Sweep.C36_method_partial false line m.ring m.pts (hc m hm).line (hc m hm).part (hc m hm).proper

/-- C100, soundness, for any number of parts. -/
theorem C100_sound_partial (ms : List Part) (ring : List Pt) (subs : List Poly) (r : List Nat)
    (h : Gives (fun n => touchingPolygon n ms ring subs) r) (hc : ∀ m ∈ ms, Clean true ring m) :
    ∀ i ∈ r, ∃ m, ms[i]? = some m ∧ ((∃ p, m.Has p ∧ (Poly.mk ring subs).contains p = true) ∨ m.MeetsLine true ring) := by
  intro i hi
  obtain ⟨m, h1, -, h2⟩ := query_sound h i hi
  refine ⟨m, h1, ?_⟩
  unfold touchTest at h2
  by_cases hin : (Poly.mk ring subs).contains m.first = true
  · exact Or.inl ⟨m.first, Or.inl (by simp [Part.pts]), hin⟩
  · rw [if_neg hin] at h2
    have hm := hc m (List.mem_of_getElem? h1)
    obtain ⟨b, h3, h4⟩ := Sweep.C36_method_partial true ring m.ring m.pts hm.line hm.part hm.proper
    rw [h2] at h3; cases h3
    exact Or.inr (h4.1 rfl)

/-- C100 is false: a horizontal or vertical line is never returned, wherever it is. -/
theorem C100_violated_flat (ms : List Part) (ring : List Pt) (subs : List Poly) (r : List Nat)
    (h : Gives (fun n => touchingPolygon n ms ring subs) r) (i : Nat) (m : Part) (hi : ms[i]? = some m)
    (hf : (∀ p ∈ m.pts, p.x = m.first.x) ∨ ∀ p ∈ m.pts, p.y = m.first.y) : i ∉ r := by
  intro hmem
  obtain ⟨m', h1, h2, -⟩ := query_sound h i hmem
  rw [hi] at h1; cases h1
  obtain ⟨x, y, -, -, -, -, ⟨a, ha, ka⟩, ⟨b, hb, kb⟩, ⟨c, hc, kc⟩, ⟨d, hd, kd⟩⟩ := h2
  rcases hf with hf | hf
  · rw [hf a ha] at ka; rw [hf b hb] at kb; linarith
  · rw [hf c hc] at kc; rw [hf d hd] at kd; linarith

/-! ### A concrete case -/

/-- A triangle with a hole, a line inside, and a line that leaves the triangle. -/
def exRing : List Pt := [⟨0, 0⟩, ⟨10, 0⟩, ⟨0, 10⟩]
def exHole : List Pt := [⟨1, 5⟩, ⟨2, 5⟩, ⟨1, 6⟩]
def exParts : List Part := [⟨false, ⟨1, 1⟩, [⟨3, 2⟩]⟩, ⟨false, ⟨2, 3⟩, [⟨8, 7⟩]⟩]

theorem exRing_simple : Sweep.NoSelfCrossing true exRing := by
  simp only [exRing, Sweep.NoSelfCrossing, segsOf]
  simp
  refine ⟨⟨?_, ?_⟩, ?_⟩ <;>
  · rintro ⟨px, py⟩ ⟨u, u0, u1, ux, uy⟩ ⟨v, v0, v1, vx, vy⟩
    simp only at ux uy vx vy
    simp only [P2.mk.injEq]
    first
    | exact ⟨Or.inr ⟨by linarith, by linarith⟩, Or.inl ⟨by linarith, by linarith⟩⟩
    | exact ⟨Or.inl ⟨by linarith, by linarith⟩, Or.inr ⟨by linarith, by linarith⟩⟩
    | skip

theorem exParts_clean : ∀ m ∈ exParts, Clean true exRing m := by
  simp only [exParts, List.mem_cons, List.not_mem_nil, or_false, forall_eq_or_imp, forall_eq]
  refine ⟨⟨exRing_simple, Sweep.noSelfCrossing_two _ _, ?_⟩, exRing_simple, Sweep.noSelfCrossing_two _ _, ?_⟩ <;>
  · intro s t p hs ht hp hq
    rw [← mem_segsOf] at hs ht
    simp [segsOf, exRing, Part.pts] at hs ht
    obtain ⟨u, u0, u1, ux, uy⟩ := hp
    obtain ⟨v, v0, v1, vx, vy⟩ := hq
    subst ht
    obtain ⟨px, py⟩ := p
    rcases hs with rfl | rfl | rfl <;> simp only at ux uy vx vy <;> simp only [ne_eq, P2.mk.injEq, not_and] <;>
    refine ⟨⟨fun h1 h2 => ?_, fun h1 h2 => ?_⟩, fun h1 h2 => ?_, fun h1 h2 => ?_⟩ <;> linarith

theorem exParts_avoid : ∀ m ∈ exParts, m.AvoidsHoles [.mk exHole []] := by
  simp only [exParts, List.mem_cons, List.not_mem_nil, or_false, forall_eq_or_imp, forall_eq]
  refine ⟨?_, ?_⟩ <;>
  · intro s hs a b hab g hg
    simp only [List.mem_singleton] at hs
    subst hs
    rw [← mem_segsOf] at hg
    simp [segsOf, Part.pts] at hg
    subst hg
    cases hab with
    | inner h => simp at h
    | outer he =>
      have : IsSegment true exHole ⟨a, b⟩ := by
        rcases he with ⟨i, h1, h2⟩ | ⟨h1, h2⟩
        · exact Or.inl ⟨i, h1, h2⟩
        · exact Or.inr ⟨rfl, h1, h2⟩
      rw [← mem_segsOf] at this
      simp [segsOf, exHole] at this
      rintro ⟨t, u, t0, t1, u0, u1, ex, ey⟩
      rcases this with ⟨rfl, rfl⟩ | ⟨rfl, rfl⟩ | ⟨rfl, rfl⟩ <;> simp only at ex ey <;> linarith

/-- Eighty lines whose index is intact. -/
example : Indexed (clusters.map fun b => ⟨false, ⟨b.xmin, b.ymin⟩, [⟨b.xmax, b.ymax⟩]⟩) := by
  have e : ((clusters.map fun b => (⟨false, ⟨b.xmin, b.ymin⟩, [⟨b.xmax, b.ymax⟩]⟩ : Part)).map fun m => boxOf m.first m.rest) = clusters := by
    decide +kernel
  refine .inr ?_
  rw [e]
  exact ⟨clusters_clean, fun t ht => clusters_len ht⟩

/-- Both queries on the concrete case: the first line is within, both touch. -/
example : (∃ r, Gives (fun n => within n exParts exRing [.mk exHole []]) r ∧ 0 ∈ r) ∧
    (∃ r, Gives (fun n => touchingPolygon n exParts exRing [.mk exHole []]) r ∧ 0 ∈ r ∧ 1 ∈ r) := by
  have hw : ∀ m ∈ exParts, m.Wide := by
    simp only [exParts, List.mem_cons, List.not_mem_nil, or_false, forall_eq_or_imp, forall_eq]
    constructor
    · exact ⟨⟨⟨1, 1⟩, by simp [Part.pts], ⟨3, 2⟩, by simp [Part.pts], by norm_num⟩, ⟨1, 1⟩, by simp [Part.pts], ⟨3, 2⟩, by simp [Part.pts], by norm_num⟩
    · exact ⟨⟨⟨2, 3⟩, by simp [Part.pts], ⟨8, 7⟩, by simp [Part.pts], by norm_num⟩, ⟨2, 3⟩, by simp [Part.pts], ⟨8, 7⟩, by simp [Part.pts], by norm_num⟩
  have hno : ¬ (Part.mk false ⟨1, 1⟩ [⟨3, 2⟩]).MeetsLine true exRing := by
    rintro ⟨s, t, ⟨px, py⟩, hs, ht, ⟨u, u0, u1, ux, uy⟩, v, v0, v1, vx, vy⟩
    rw [← mem_segsOf] at hs ht
    simp [segsOf, exRing, Part.pts] at hs ht
    subst ht
    rcases hs with rfl | rfl | rfl <;> simp only at ux uy vx vy <;> linarith
  constructor
  · obtain ⟨r, h1, -, h3⟩ := C99_exact_partial exParts exRing [.mk exHole []] (.inl (by decide)) hw exParts_clean exParts_avoid (by simp [exRing])
    refine ⟨r, h1, (h3 0).2 ⟨⟨false, ⟨1, 1⟩, [⟨3, 2⟩]⟩, rfl, ?_, hno⟩⟩
    intro p hp
    rw [part_const hno (exParts_avoid _ (by simp [exParts])) hp]
    decide +kernel
  · obtain ⟨r, h1, -, h3⟩ := C100_polygon_partial exParts exRing [.mk exHole []] (.inl (by decide)) exParts_clean exParts_avoid (by simp [exRing])
    refine ⟨r, h1, (h3 0).2 ⟨⟨false, ⟨1, 1⟩, [⟨3, 2⟩]⟩, rfl, ?_, Or.inl ⟨⟨1, 1⟩, Or.inl (by simp [Part.pts]), by decide +kernel⟩⟩,
      (h3 1).2 ⟨⟨false, ⟨2, 3⟩, [⟨8, 7⟩]⟩, rfl, ?_, Or.inl ⟨⟨2, 3⟩, Or.inl (by simp [Part.pts]), by decide +kernel⟩⟩⟩
    · apply (meet_boxOf ⟨0, 0⟩ [⟨10, 0⟩, ⟨0, 10⟩] ⟨1, 1⟩ [⟨3, 2⟩]).1
      have e1 : boxOf ⟨0, 0⟩ [⟨10, 0⟩, ⟨0, 10⟩] = ⟨0, 0, 10, 10⟩ := by decide +kernel
      have e2 : boxOf ⟨1, 1⟩ [⟨3, 2⟩] = ⟨1, 1, 3, 2⟩ := by decide +kernel
      rw [e1, e2]
      exact ⟨2, 3 / 2, by norm_num [RTree.Inside], by norm_num [RTree.Inside]⟩
    · apply (meet_boxOf ⟨0, 0⟩ [⟨10, 0⟩, ⟨0, 10⟩] ⟨2, 3⟩ [⟨8, 7⟩]).1
      have e1 : boxOf ⟨0, 0⟩ [⟨10, 0⟩, ⟨0, 10⟩] = ⟨0, 0, 10, 10⟩ := by decide +kernel
      have e2 : boxOf ⟨2, 3⟩ [⟨8, 7⟩] = ⟨2, 3, 8, 7⟩ := by decide +kernel
      rw [e1, e2]
      exact ⟨4, 5, by norm_num [RTree.Inside], by norm_num [RTree.Inside]⟩

end Karta.Multi
