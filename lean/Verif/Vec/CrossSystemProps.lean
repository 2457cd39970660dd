import Verif.Vec.CrossSystem
import Verif.Vec.QuadTreeProps
import Verif.Vec.WindProps
import Verif.Vec.VerticesProps

/-!
# C161: queries between geometries in different coordinate systems
-/

namespace Karta.CrossSys
open Karta Karta.Vec Karta.Obj

/-! ### Specification -/

/-- The position of a point of system `own` in system `c`. -/
def placed (move : Crs → Crs → Pt → Pt) (own c : Crs) (p : Pt) : Pt := if c.eq own then p else move own c p

/-- The systems are the same, or a conversion between them exists. -/
def Comparable (a b : Crs) : Prop := (a.eq b = true ∧ b.eq a = true) ∨ (a.kind ≠ .cartesian ∧ b.kind ≠ .cartesian)

/-- Conversion there and back gives the point again. -/
def Inverse (move : Crs → Crs → Pt → Pt) (a b : Crs) : Prop := ∀ p, placed move b a (placed move a b p) = p

/-- The conversion is an affine map (a change of units, a shift of the origin, a rotation). -/
def IsAffine (move : Crs → Crs → Pt → Pt) (a b : Crs) : Prop := ∃ g : Affine, ∀ p, placed move a b p = g.apply p

/-! ### Conversions -/

theorem vertexIn_ok (move : Crs → Crs → Pt → Pt) {own c : Crs} (h : Comparable own c) (p : Pt) :
    vertexIn move own c p = .ok (placed move own c p) := by
  unfold vertexIn placed
  by_cases he : c.eq own
  · rw [if_pos he, if_pos he]
  · rw [if_neg he, if_neg he]
    rcases h with h | h
    · exact absurd h.2 he
    · rw [if_neg h.1, if_neg h.2]

theorem shown_ok (move : Crs → Crs → Pt → Pt) {own c : Crs} (h : Comparable own c) (ps : List Pt) :
    shown move own c ps = .ok (ps.map (placed move own c)) := by
  unfold shown transform
  by_cases he : c.eq own
  · rw [if_pos he]
    have : placed move own c = id := by funext p; unfold placed; rw [if_pos he]; rfl
    rw [this, List.map_id]
  · rw [if_neg he]
    have : placed move own c = move own c := by funext p; unfold placed; rw [if_neg he]
    rw [this]
    rcases h with h | h
    · exact absurd h.2 he
    · rw [if_neg h.1, if_neg h.2]

theorem Comparable.symm {a b : Crs} (h : Comparable a b) : Comparable b a := by
  rcases h with h | h
  · exact .inl ⟨h.2, h.1⟩
  · exact .inr ⟨h.2, h.1⟩

theorem confirm_ok (move : Crs → Crs → Pt → Pt) {own c : Crs} (h : Comparable own c) (pts : List Pt) (test : Pt → Bool) (is : List Nat)
    (his : ∀ i ∈ is, i < pts.length) :
    confirm move own c pts test is = .ok (is.filter fun i => QT.testAt pts i fun p => test (placed move own c p)) := by
  induction is with
  | nil => rfl
  | cons i is ih =>
    have hi : i < pts.length := his i (by simp)
    rw [confirm, List.getElem?_eq_getElem hi]
    dsimp only
    rw [vertexIn_ok move h, ih (fun j hj => his j (by simp [hj]))]
    dsimp only
    have ht : QT.testAt pts i (fun p => test (placed move own c p)) = test (placed move own c pts[i]) := by
      unfold QT.testAt; rw [List.getElem?_eq_getElem hi]
    rw [List.filter_cons, ht]

theorem search_lt {cap fuel : Nat} (hcap : 1 ≤ cap) {pts : List Pt} {s : QT.State} (hs : QT.build cap fuel pts = some s) (q : Box) :
    ∀ i ∈ QT.search s q, i < pts.length := by
  intro i hi
  obtain ⟨p, hp, _⟩ := ((QT.C24_search_exact cap hcap fuel pts s hs q).2 i).1 hi
  exact (List.getElem?_eq_some_iff.1 hp).1

/-! ### One system -/

/-- C161, part: geometries in one system are compared as they are. -/
theorem C161_intersects_partial (move : Crs → Crs → Pt → Pt) (ca cb : Crs) (he : ca.eq cb = true) (ringA : Bool) (as : List Pt) (ringB : Bool)
    (bs : List Pt) : intersectsIn move ca ringA as cb ringB bs = Sweep.geomIntersects ringA as ringB bs := by
  unfold intersectsIn shown Sweep.geomIntersects
  rw [if_pos he]
  rfl

/-- C161, part: whatever the conversion is, two geometries without an overlap of boxes do not intersect; this needs the box of the second
geometry in the system of the first. -/
theorem C161_apart (move : Crs → Crs → Pt → Pt) (ca cb : Crs) (hc : Comparable ca cb) (ringA : Bool) (as : List Pt) (ringB : Bool)
    (bs : List Pt) (a b : Box) (ha : bbox as = some a) (hb : bbox (bs.map (placed move cb ca)) = some b) (hn : bboxesOverlap a b = false) :
    intersectsIn move ca ringA as cb ringB bs = .ok false := by
  unfold intersectsIn
  rw [shown_ok move hc.symm]
  dsimp only
  rw [ha, hb]
  dsimp only
  rw [hn]; simp

/-! ### Radii -/

/-- C161: without an index, the points selected are those nearer than the radius in the system of the point, whatever the systems are. -/
theorem C161_radius_plain (move : Crs → Crs → Pt → Pt) (own pc : Crs) (hc : Comparable own pc) (pts : List Pt) (c : Pt) (r : ℚ) :
    ∃ is, withinRadiusPlain move own pts pc c r = .ok is ∧ is.Pairwise (· < ·) ∧
      ∀ i, i ∈ is ↔ ∃ p, pts[i]? = some p ∧ 0 < r ∧
        (c.x - (placed move own pc p).x) ^ 2 + (c.y - (placed move own pc p).y) ^ 2 < r ^ 2 := by
  refine ⟨_, confirm_ok move hc pts _ _ (fun i hi => List.mem_range.1 hi), List.pairwise_lt_range.filter _, fun i => ?_⟩
  rw [List.mem_filter, List.mem_range]
  unfold QT.testAt
  by_cases hi : i < pts.length
  · rw [List.getElem?_eq_getElem hi]
    simp [hi, QT.nearer, pow_two]
  · rw [List.getElem?_eq_none (by omega)]; simp

/-- C161, part: with an index this holds for a point in the system of the points. -/
theorem C161_radius_partial (move : Crs → Crs → Pt → Pt) (own pc : Crs) (he : pc.eq own = true) (cap : Nat) (hcap : 1 ≤ cap)
    (fuel : Nat) (pts : List Pt) (s : QT.State) (hs : QT.build cap fuel pts = some s) (c : Pt) (r : ℚ) :
    ∃ is, withinRadiusIn move s own pts pc c r = .ok is ∧ is.Pairwise (· < ·) ∧
      ∀ i, i ∈ is ↔ ∃ p, pts[i]? = some p ∧ 0 < r ∧ (c.x - p.x) ^ 2 + (c.y - p.y) ^ 2 < r ^ 2 := by
  have hconf : ∀ is : List Nat, (∀ i ∈ is, i < pts.length) → confirm move own pc pts (fun q => QT.nearer c q r) is =
      .ok (is.filter fun i => QT.testAt pts i fun p => QT.nearer c p r) := by
    intro is
    induction is with
    | nil => intro _; rfl
    | cons i is ih =>
      intro his
      have hi : i < pts.length := his i (by simp)
      rw [confirm, List.getElem?_eq_getElem hi]
      dsimp only
      unfold vertexIn
      rw [if_pos he]
      dsimp only
      rw [ih (fun j hj => his j (by simp [hj]))]
      dsimp only
      have ht : QT.testAt pts i (fun p => QT.nearer c p r) = QT.nearer c pts[i] r := by
        unfold QT.testAt; rw [List.getElem?_eq_getElem hi]
      rw [List.filter_cons, ht]
  obtain ⟨h1, h2⟩ := QT.C60_within_radius_agrees cap hcap fuel pts s hs c r
  refine ⟨QT.withinRadiusPlain pts c r, ?_, List.pairwise_lt_range.filter _, h2⟩
  unfold withinRadiusIn
  rw [hconf _ (search_lt hcap hs _)]
  exact congrArg Except.ok h1

/-! ### Polygons -/

theorem mem_of_isEdge {ps : List Pt} {a b : Pt} (h : IsEdge ps a b) : a ∈ ps ∧ b ∈ ps := by
  rcases h with ⟨i, h1, h2⟩ | ⟨h1, h2⟩
  · exact ⟨List.mem_of_getElem? h1, List.mem_of_getElem? h2⟩
  · exact ⟨List.mem_of_getLast? h1, List.mem_of_head? h2⟩

theorem escape (box : Box) (q : Pt) (a b : ℚ) (h : a ≠ 0 ∨ b ≠ 0) : ∃ t : ℚ, 0 ≤ t ∧ ¬ box.Contains ⟨q.x - t * a, q.y - t * b⟩ := by
  have key : ∀ (u v lo hi : ℚ), v ≠ 0 → ∃ t : ℚ, 0 ≤ t ∧ ¬ (lo ≤ u - t * v ∧ u - t * v ≤ hi) := by
    intro u v lo hi hv
    rcases lt_or_gt_of_ne hv with hv | hv
    · refine ⟨(|u| + |hi| + 1) / (-v), div_nonneg (by positivity) (by linarith), fun hh => ?_⟩
      have : (|u| + |hi| + 1) / (-v) * v = -(|u| + |hi| + 1) := by field_simp
      have := hh.2
      linarith [neg_abs_le u, le_abs_self hi]
    · refine ⟨(|u| + |lo| + 1) / v, div_nonneg (by positivity) hv.le, fun hh => ?_⟩
      have : (|u| + |lo| + 1) / v * v = |u| + |lo| + 1 := by field_simp
      have := hh.1
      linarith [le_abs_self u, neg_abs_le lo]
  rcases h with h | h
  · obtain ⟨t, h0, h1⟩ := key q.x a box.xmin box.xmax h
    exact ⟨t, h0, fun hb => h1 ⟨hb.1, hb.2.1⟩⟩
  · obtain ⟨t, h0, h1⟩ := key q.y b box.ymin box.ymax h
    exact ⟨t, h0, fun hb => h1 ⟨hb.2.2.1, hb.2.2.2⟩⟩

/-- A point separated from all vertices by a straight line is not in the polygon. -/
theorem contains_halfplane (ring : List Pt) (subs : List Poly) (q : Pt) (a b m : ℚ) (hne : ring ≠ [])
    (hr : ∀ v ∈ ring, m ≤ a * v.x + b * v.y) (hq : a * q.x + b * q.y < m) : (Poly.mk ring subs).contains q = false := by
  have hab : a ≠ 0 ∨ b ≠ 0 := by
    by_contra h
    obtain ⟨v, hv⟩ := List.exists_mem_of_ne_nil ring hne
    have := hr v hv
    simp only [not_or, not_not] at h
    rw [h.1, h.2] at this hq
    linarith
  obtain ⟨p0, ps, rfl⟩ := List.exists_cons_of_ne_nil hne
  obtain ⟨box, hb⟩ : ∃ box, bbox (p0 :: ps) = some box := ⟨_, rfl⟩
  obtain ⟨t, ht, hout⟩ := escape box q a b hab
  refine C98_reaches_outside _ subs box hb q [⟨q.x - t * a, q.y - t * b⟩] ?_ (by simpa using hout)
  rw [List.isChain_cons_cons]
  refine ⟨?_, List.IsChain.singleton _⟩
  rintro u v huv ⟨k, l, k0, k1, l0, l1, ex, ey⟩
  obtain ⟨hu, hv⟩ := mem_of_isEdge huv
  have h1 := hr u hu
  have h2 := hr v hv
  simp only at ex ey
  have hlow : m ≤ a * (u.x + l * (v.x - u.x)) + b * (u.y + l * (v.y - u.y)) := by
    have : a * (u.x + l * (v.x - u.x)) + b * (u.y + l * (v.y - u.y)) = (1 - l) * (a * u.x + b * u.y) + l * (a * v.x + b * v.y) := by ring
    rw [this]
    nlinarith
  rw [← ex, ← ey] at hlow
  have : a * (q.x + k * (q.x - t * a - q.x)) + b * (q.y + k * (q.y - t * b - q.y)) = a * q.x + b * q.y - k * t * (a * a + b * b) := by ring
  rw [this] at hlow
  have : 0 ≤ k * t * (a * a + b * b) := mul_nonneg (mul_nonneg k0 ht) (add_nonneg (mul_self_nonneg a) (mul_self_nonneg b))
  linarith

/-- C161: when the conversion is affine, every point that the polygon contains lies in the box of the converted vertices. -/
theorem C161_box (move : Crs → Crs → Pt → Pt) (own pc : Crs) (hinv : Inverse move own pc) (haff : IsAffine move pc own)
    (ring : List Pt) (subs : List Poly) (box : Box) (hb : bbox (ring.map (placed move pc own)) = some box) (p : Pt)
    (hp : (Poly.mk ring subs).contains (placed move own pc p) = true) : box.Contains p := by
  obtain ⟨g, hg⟩ := haff
  have hne : ring ≠ [] := by rintro rfl; simp [bbox] at hb
  have hv : ∀ v ∈ ring, box.Contains (g.apply v) := fun v hv => by
    rw [← hg]; exact bbox_contains hb _ (List.mem_map_of_mem hv)
  have hpg : g.apply (placed move own pc p) = p := by rw [← hg]; exact hinv p
  generalize placed move own pc p = q at hp hpg
  by_contra hno
  have hx : p.x = g.a * q.x + g.b * q.y + g.c := by rw [← hpg]; rfl
  have hy : p.y = g.d * q.x + g.e * q.y + g.f := by rw [← hpg]; rfl
  have hcon : ∀ a b m : ℚ, (∀ v ∈ ring, m ≤ a * v.x + b * v.y) → ¬ a * q.x + b * q.y < m := by
    intro a b m h1 h2
    rw [contains_halfplane ring subs q a b m hne h1 h2] at hp
    cases hp
  have hvb : ∀ v ∈ ring, box.xmin ≤ g.a * v.x + g.b * v.y + g.c ∧ g.a * v.x + g.b * v.y + g.c ≤ box.xmax ∧
      box.ymin ≤ g.d * v.x + g.e * v.y + g.f ∧ g.d * v.x + g.e * v.y + g.f ≤ box.ymax := fun v h => hv v h
  apply hno
  refine ⟨?_, ?_, ?_, ?_⟩
  · have := hcon g.a g.b (box.xmin - g.c) (fun v h => by linarith [(hvb v h).1])
    linarith
  · have := hcon (-g.a) (-g.b) (g.c - box.xmax) (fun v h => by linarith [(hvb v h).2.1])
    linarith
  · have := hcon g.d g.e (box.ymin - g.f) (fun v h => by linarith [(hvb v h).2.2.1])
    linarith
  · have := hcon (-g.d) (-g.e) (g.f - box.ymax) (fun v h => by linarith [(hvb v h).2.2.2])
    linarith

/-- C161: without an index, the points selected are those the polygon contains, whatever the systems are. -/
theorem C161_polygon_plain (move : Crs → Crs → Pt → Pt) (own pc : Crs) (hc : Comparable own pc) (pts : List Pt) (ring : List Pt)
    (subs : List Poly) :
    ∃ is, withinPolygonPlain move own pts pc ring subs = .ok is ∧ is.Pairwise (· < ·) ∧
      ∀ i, i ∈ is ↔ ∃ p, pts[i]? = some p ∧ (Poly.mk ring subs).contains (placed move own pc p) = true := by
  refine ⟨_, confirm_ok move hc pts _ _ (fun i hi => List.mem_range.1 hi), List.pairwise_lt_range.filter _, fun i => ?_⟩
  rw [List.mem_filter, List.mem_range]
  unfold QT.testAt
  by_cases hi : i < pts.length
  · rw [List.getElem?_eq_getElem hi]
    simp [hi]
  · rw [List.getElem?_eq_none (by omega)]; simp

/-- C161, part: with an index, every point selected is contained whatever the systems are; and when the conversion is affine every point
contained is selected, unless it is on the border of the box of the converted polygon. -/
theorem C161_polygon_partial (move : Crs → Crs → Pt → Pt) (own pc : Crs) (hc : Comparable own pc)
    (cap : Nat) (hcap : 1 ≤ cap) (fuel : Nat) (pts : List Pt)
    (s : QT.State) (hs : QT.build cap fuel pts = some s) (ring : List Pt) (subs : List Poly) (box : Box)
    (hb : bbox (ring.map (placed move pc own)) = some box) :
    ∃ is, withinPolygonIn move s own pts pc ring subs = .ok is ∧ is.Pairwise (· < ·) ∧
      (∀ i ∈ is, ∃ p, pts[i]? = some p ∧ (Poly.mk ring subs).contains (placed move own pc p) = true) ∧
      (Inverse move own pc → IsAffine move pc own → ∀ i p, pts[i]? = some p →
        (Poly.mk ring subs).contains (placed move own pc p) = true →
          i ∈ is ∨ p.x = box.xmin ∨ p.x = box.xmax ∨ p.y = box.ymin ∨ p.y = box.ymax) := by
  obtain ⟨hn, hm⟩ := QT.C24_search_exact cap hcap fuel pts s hs box
  have hmem : ∀ i p, pts[i]? = some p → QT.testAt pts i (fun p => (Poly.mk ring subs).contains (placed move own pc p)) =
      (Poly.mk ring subs).contains (placed move own pc p) := by
    intro i p h; unfold QT.testAt; rw [h]
  refine ⟨QT.sortInts ((QT.search s box).filter fun i => QT.testAt pts i fun p => (Poly.mk ring subs).contains (placed move own pc p)), ?_, ?_, ?_, ?_⟩
  · unfold withinPolygonIn
    rw [shown_ok move hc.symm]
    dsimp only
    rw [hb]
    dsimp only
    rw [confirm_ok move hc pts _ _ (search_lt hcap hs box)]
  · have h1 : (QT.sortInts ((QT.search s box).filter fun i => QT.testAt pts i fun p => (Poly.mk ring subs).contains (placed move own pc p))).Pairwise (· ≤ ·) :=
      List.pairwise_insertionSort (· ≤ ·) _
    have h2 : (QT.sortInts ((QT.search s box).filter fun i => QT.testAt pts i fun p => (Poly.mk ring subs).contains (placed move own pc p))).Nodup :=
      (List.perm_insertionSort (· ≤ ·) _).nodup_iff.2 (hn.filter _)
    exact h1.imp₂ (fun a b h h' => lt_of_le_of_ne h h') h2
  · intro i hi
    rw [QT.sortInts, List.mem_insertionSort, List.mem_filter] at hi
    obtain ⟨p, hp, _⟩ := (hm i).1 hi.1
    exact ⟨p, hp, by rw [← hmem i p hp]; exact hi.2⟩
  · intro hinv haff i p hp hcon
    have hbox := C161_box move own pc hinv haff ring subs box hb p hcon
    by_cases hin : box.Inside p
    · left
      rw [QT.sortInts, List.mem_insertionSort, List.mem_filter]
      exact ⟨(hm i).2 ⟨p, hp, hin⟩, by rw [hmem i p hp]; exact hcon⟩
    · right
      by_contra h
      simp only [not_or] at h
      exact hin ⟨lt_of_le_of_ne hbox.1 (Ne.symm h.1), lt_of_le_of_ne hbox.2.1 h.2.1,
        lt_of_le_of_ne hbox.2.2.1 (Ne.symm h.2.2.1), lt_of_le_of_ne hbox.2.2.2 h.2.2.2⟩

/-! ### Different systems -/

/-- The box searched is around the coordinates of the point in its own system: when the conversion moves positions by twice the radius or
more, not a single point is found, however near they are. -/
theorem C161_violated_radius (move : Crs → Crs → Pt → Pt) (own pc : Crs) (hc : Comparable own pc) (cap : Nat) (hcap : 1 ≤ cap)
    (fuel : Nat) (pts : List Pt) (s : QT.State) (hs : QT.build cap fuel pts = some s) (c : Pt) (r : ℚ)
    (hfar : ∀ p ∈ pts, 2 * r ≤ |p.x - (placed move own pc p).x|) : withinRadiusIn move s own pts pc c r = .ok [] := by
  unfold withinRadiusIn
  rw [confirm_ok move hc pts _ _ (search_lt hcap hs _)]
  have : ((QT.search s ⟨c.x - r, c.y - r, c.x + r, c.y + r⟩).filter fun i => QT.testAt pts i fun p => QT.nearer c (placed move own pc p) r) = [] := by
    rw [List.filter_eq_nil_iff]
    intro i hi ht
    obtain ⟨p, hp, hin⟩ := ((QT.C24_search_exact cap hcap fuel pts s hs _).2 i).1 hi
    unfold QT.testAt at ht
    rw [hp] at ht
    simp only [QT.nearer, decide_eq_true_eq] at ht
    obtain ⟨h0, h1⟩ := ht
    have hx := QT.sq_lt_abs h0 h1
    have := hfar p (List.mem_of_getElem? hp)
    have hlt : |p.x - (placed move own pc p).x| < 2 * r := by
      obtain ⟨i1, i2, _, _⟩ := hin
      simp only at i1 i2
      rw [abs_lt]; constructor <;> linarith [hx.1, hx.2]
    linarith
  rw [this]
  rfl

/-- Two projected systems; the origin of the second is 7 to the east of that of the first. -/
def west : Crs := ⟨1, .projected, "w", "g", "W"⟩
def east : Crs := ⟨2, .projected, "e", "g", "E"⟩

/-- The conversion between them. -/
def hop (a b : Crs) (p : Pt) : Pt := if a.srs = "e" ∧ b.srs = "w" then ⟨p.x + 7, p.y⟩ else if a.srs = "w" ∧ b.srs = "e" then ⟨p.x - 7, p.y⟩ else p

/-- A conversion that bends lines. -/
def bend (a b : Crs) (p : Pt) : Pt :=
  if a.srs = "e" ∧ b.srs = "w" then ⟨p.x, p.y - p.x * p.x⟩ else if a.srs = "w" ∧ b.srs = "e" then ⟨p.x, p.y + p.x * p.x⟩ else p

theorem comparable_example : Comparable west east := .inr ⟨by decide, by decide⟩

theorem placed_ew (move : Crs → Crs → Pt → Pt) (p : Pt) : placed move east west p = move east west p := by
  unfold placed; rw [if_neg (by decide)]

theorem placed_we (move : Crs → Crs → Pt → Pt) (p : Pt) : placed move west east p = move west east p := by
  unfold placed; rw [if_neg (by decide)]

theorem hop_inverse : Inverse hop west east := by
  intro p
  rw [placed_ew, placed_we]
  simp [hop, west, east]

theorem hop_affine : IsAffine hop east west := by
  refine ⟨⟨1, 0, 7, 0, 1, 0⟩, fun p => ?_⟩
  rw [placed_ew]
  simp [hop, west, east, Affine.apply]

theorem bend_inverse : Inverse bend west east := by
  intro p
  rw [placed_ew, placed_we]
  simp [bend, west, east]

/-- A diagonal line in the western system. -/
def diagonal : List Pt := [⟨0, 0⟩, ⟨10, 10⟩]

/-- A crossing is missed: the second line, once converted, crosses the first. -/
theorem C161_violated_missed : ∃ bs : List Pt,
    intersectsIn hop west false diagonal east false bs = .ok false ∧
    Sweep.geomIntersects false diagonal false (bs.map (placed hop east west)) = .ok true :=
  ⟨[⟨-3, 6⟩, ⟨-1, 4⟩], by decide +kernel, by decide +kernel⟩

/-- A crossing is made up: the second line, once converted, does not meet the first. -/
theorem C161_violated_spurious : ∃ bs : List Pt,
    intersectsIn hop west false diagonal east false bs = .ok true ∧
    Sweep.geomIntersects false diagonal false (bs.map (placed hop east west)) = .ok false :=
  ⟨[⟨0, 3⟩, ⟨2, 0⟩], by decide +kernel, by decide +kernel⟩

/-- The same question with the geometries exchanged can have another answer. -/
theorem C161_violated_order : ∃ bs : List Pt,
    intersectsIn bend west false diagonal east false bs = .ok false ∧ intersectsIn bend east false bs west false diagonal = .ok true :=
  ⟨[⟨7, 8⟩, ⟨8, 7⟩], by decide +kernel, by decide +kernel⟩

/-- `intersections` gives positions where the converted geometries have none, and none where they have one. -/
theorem C161_violated_intersections : ∃ bs cs : List Pt,
    intersectionsIn west false diagonal east false bs = [⟨6 / 5, 6 / 5⟩] ∧
    allIntersections false diagonal false (bs.map (placed hop east west)) = [] ∧
    intersectionsIn west false diagonal east false cs = [] ∧
    allIntersections false diagonal false (cs.map (placed hop east west)) = [⟨5, 5⟩] :=
  ⟨[⟨0, 3⟩, ⟨2, 0⟩], [⟨-3, 6⟩, ⟨-1, 4⟩], by decide +kernel, by decide +kernel, by decide +kernel, by decide +kernel⟩

/-- `intersections` gives positions for geometries that cannot be compared, where `intersects` raises. -/
theorem C161_violated_incomparable (move : Crs → Crs → Pt → Pt) : ∃ (cart : Crs) (bs : List Pt),
    intersectsIn move cart false diagonal east false bs = .error .attributeError ∧
    intersectionsIn cart false diagonal east false bs = [⟨5, 5⟩] :=
  ⟨⟨0, .cartesian, "", "", "Cartesian"⟩, [⟨0, 10⟩, ⟨10, 0⟩], rfl, by decide +kernel⟩

/-- A point at the very place asked for is not found. -/
example : ∃ s, QT.build 4 5 [⟨50, 50⟩, ⟨60, 60⟩] = some s ∧ placed hop west east ⟨50, 50⟩ = ⟨43, 50⟩ ∧
    withinRadiusIn hop s west [⟨50, 50⟩, ⟨60, 60⟩] east ⟨43, 50⟩ 1 = .ok [] ∧
    withinRadiusPlain hop west [⟨50, 50⟩, ⟨60, 60⟩] east ⟨43, 50⟩ 1 = .ok [0] := by
  refine ⟨_, rfl, by decide +kernel, ?_, by decide +kernel⟩
  refine C161_violated_radius hop west east comparable_example 4 (by omega) 5 _ _ rfl _ _ (fun p _ => ?_)
  rw [placed_we]
  simp [hop, west, east]
  norm_num

/-- With a conversion that bends lines, a point in the polygon is outside of the box of the converted vertices and is not found. -/
theorem C161_violated_polygon : ∃ (ring pts : List Pt) (s : QT.State), QT.build 4 5 pts = some s ∧
    withinPolygonIn bend s west pts east ring [] = .ok [] ∧ withinPolygonPlain bend west pts east ring [] = .ok [0] := by
  refine ⟨[⟨-2, 0⟩, ⟨2, 0⟩, ⟨2, 1⟩, ⟨-2, 1⟩], [⟨0, 1 / 2⟩], _, rfl, ?_, ?_⟩
  · decide +kernel
  · simp only [withinPolygonPlain]
    decide +kernel

/-- A point inside and one on the border of the box, a polygon in the other system. -/
example : ∃ s, QT.build 4 5 [⟨8, 1⟩, ⟨20, 20⟩] = some s ∧
    withinPolygonIn hop s west [⟨8, 1⟩, ⟨20, 20⟩] east [⟨0, 0⟩, ⟨3, 0⟩, ⟨3, 3⟩, ⟨0, 3⟩] [] = .ok [0] ∧
    bbox (([⟨0, 0⟩, ⟨3, 0⟩, ⟨3, 3⟩, ⟨0, 3⟩] : List Pt).map (placed hop east west)) = some ⟨7, 0, 10, 3⟩ :=
  ⟨_, rfl, by decide +kernel, by decide +kernel⟩

end Karta.CrossSys
