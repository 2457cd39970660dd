import Verif.Vec.Length
import Verif.Geod.PlaneProps
import Verif.Geod.SphereProps
import Mathlib.Data.List.Rotate

/-!
# Lengths and perimeters: property C140
-/

namespace Karta.Length
open Karta Karta.Geod

/-! ### Specification -/

/-- Spec: the sum of the distances `d` of consecutive vertices. -/
noncomputable def walked (d : Vtx → Vtx → ℝ) : List Vtx → ℝ
  | a :: b :: r => d a b + walked d (b :: r)
  | _ => 0

/-- Spec: the walk round a ring and back to its first vertex. -/
noncomputable def round (d : Vtx → Vtx → ℝ) : List Vtx → ℝ
  | [] => 0
  | a :: r => walked d (a :: r ++ [a])

/-- Spec: horizontal distance in the system: Euclidean, or the distance found by `inverse`. -/
noncomputable def Sys.dist : Sys → Vtx → Vtx → ℝ
  | .planar, p, q => planeDistance p.x p.y q.x q.y
  | .geo inv, p, q => (inv p.x p.y q.x q.y).2.2

/-- Spec: no distance is negative and no detour shorter. -/
structure Metric (d : Vtx → Vtx → ℝ) : Prop where
  nonneg : ∀ a b, 0 ≤ d a b
  symm : ∀ a b, d a b = d b a
  tri : ∀ a b c, d a c ≤ d a b + d b c

mutual
/-- Spec: every ring has a vertex. -/
def Region.Proper : Region → Prop
  | .mk ring subs => ring ≠ [] ∧ Region.AllProper subs
def Region.AllProper : List Region → Prop
  | [] => True
  | p :: ps => p.Proper ∧ Region.AllProper ps
end

mutual
/-- Spec: the length of all boundaries, also of the holes. -/
noncomputable def Region.boundary (d : Vtx → Vtx → ℝ) : Region → ℝ
  | .mk ring subs => round d ring + Region.boundaries d subs
noncomputable def Region.boundaries (d : Vtx → Vtx → ℝ) : List Region → ℝ
  | [] => 0
  | p :: ps => p.boundary d + Region.boundaries d ps
end

/-! ### Lemmas -/

theorem planar_metric : Metric (Sys.planar.dist) := by
  have e : ∀ p q : Vtx, Sys.planar.dist p q = distance ⟨p.x, p.y, none⟩ ⟨q.x, q.y, none⟩ :=
    fun p q => (C86_planar ⟨p.x, p.y, none⟩ ⟨q.x, q.y, none⟩ rfl rfl).symm
  have m : ∀ p q r : Vtx, _ := fun p q r => C86_metric_partial ⟨p.x, p.y, none⟩ ⟨q.x, q.y, none⟩ ⟨r.x, r.y, none⟩ rfl rfl
  refine ⟨fun a b => ?_, fun a b => ?_, fun a b c => ?_⟩
  · rw [e]; exact (m a b b).2.1
  · rw [e, e]; exact (m a b b).2.2.1
  · rw [e, e, e]; exact (m a b c).2.2.2

theorem planarLoop_eq (p : Vtx) (r : List Vtx) (d : ℝ) : planarLoop p r d = d + walked Sys.planar.dist (p :: r) := by
  induction r generalizing p d with
  | nil => simp [planarLoop, walked]
  | cons q r ih =>
    rw [planarLoop, ih, walked]
    have : Real.sqrt ((q.x - p.x) * (q.x - p.x) + (q.y - p.y) * (q.y - p.y)) = Sys.planar.dist p q := by
      unfold Sys.dist planeDistance; congr 1; ring
    rw [this]; ring

theorem geoLoop_eq (inv : ℝ → ℝ → ℝ → ℝ → ℝ × ℝ × ℝ) (p : Vtx) (r : List Vtx) (d : ℝ) :
    geoLoop inv p r d = d + walked (Sys.geo inv).dist (p :: r) := by
  induction r generalizing p d with
  | nil => simp [geoLoop, walked]
  | cons q r ih =>
    rw [geoLoop, ih, walked]
    have : (inv p.x p.y q.x q.y).2.2 = (Sys.geo inv).dist p q := rfl
    rw [this]; ring

theorem walked_one (d : Vtx → Vtx → ℝ) (a : Vtx) : walked d [a] = 0 := by simp [walked]

theorem walked_cons (d : Vtx → Vtx → ℝ) (a b : Vtx) (r : List Vtx) : walked d (a :: b :: r) = d a b + walked d (b :: r) := by
  rw [walked]

theorem walked_append (d : Vtx → Vtx → ℝ) (l : List Vtx) (p : Vtx) (r : List Vtx) :
    walked d (l ++ p :: r) = walked d (l ++ [p]) + walked d (p :: r) := by
  induction l with
  | nil => simp [walked]
  | cons a l ih =>
    cases l with
    | nil => simp [walked]
    | cons b l =>
      simp only [List.cons_append, walked] at ih ⊢
      rw [ih]; ring

theorem walked_reverse (d : Vtx → Vtx → ℝ) (h : ∀ a b, d a b = d b a) (l : List Vtx) : walked d l.reverse = walked d l := by
  induction l with
  | nil => rfl
  | cons a l ih =>
    cases l with
    | nil => rfl
    | cons b l =>
      rw [List.reverse_cons, List.reverse_cons, List.append_assoc, List.singleton_append, walked_append]
      rw [← List.reverse_cons, ih, walked_cons, walked_one, walked_cons, h b a]; ring

/-! ### C140 -/

/-- C140.  The length of a line is the sum of the horizontal distances of its consecutive vertices. -/
theorem C140_length (s : Sys) (vs : List Vtx) (h : vs ≠ []) : lineLength s vs = .ok (walked s.dist vs) := by
  obtain ⟨a, r, rfl⟩ := List.exists_cons_of_ne_nil h
  cases s with
  | planar => rw [lineLength, planarLoop_eq, zero_add]
  | geo inv => rw [lineLength, geoLoop_eq, zero_add]

/-- C140.  Joining two lines end to end adds their lengths. -/
theorem C140_join (s : Sys) (l : List Vtx) (p : Vtx) (r : List Vtx) :
    ∃ x y, lineLength s (l ++ [p]) = .ok x ∧ lineLength s (p :: r) = .ok y ∧ lineLength s (l ++ p :: r) = .ok (x + y) := by
  refine ⟨_, _, C140_length s _ (by simp), C140_length s _ (by simp), ?_⟩
  rw [C140_length s _ (by simp), walked_append]

/-- C140.  In every system whose distance is a metric, a line is as long backwards, at least as long as any line through some of its
vertices in the same order, and at least as long as the distance of any earlier vertex from any later one. -/
theorem C140_metric (s : Sys) (hs : Metric s.dist) (vs : List Vtx) (h : vs ≠ []) :
    lineLength s vs.reverse = lineLength s vs ∧
    (∀ ws, ws ≠ [] → ws.Sublist vs → ∃ x y, lineLength s ws = .ok x ∧ lineLength s vs = .ok y ∧ x ≤ y) ∧
    (∀ (i j : Nat) (p q : Vtx), i ≤ j → vs[i]? = some p → vs[j]? = some q → ∃ y, lineLength s vs = .ok y ∧ (i < j → s.dist p q ≤ y) ∧ 0 ≤ y) := by
  have nonneg : ∀ l, 0 ≤ walked s.dist l := by
    intro l
    induction l with
    | nil => exact le_refl _
    | cons a l ih =>
      cases l with
      | nil => exact le_refl _
      | cons b l => rw [walked]; have := hs.nonneg a b; linarith
  have hcons : ∀ a l, walked s.dist l ≤ walked s.dist (a :: l) := by
    intro a l
    cases l with
    | nil => exact le_refl _
    | cons b l => rw [walked]; have := hs.nonneg a b; linarith
  have detour : ∀ (l : List Vtx) (a : Vtx) (r : List Vtx), r.Sublist l → walked s.dist (a :: r) ≤ walked s.dist (a :: l) := by
    intro l
    induction l with
    | nil =>
      intro a r hr
      rw [List.sublist_nil.1 hr]
    | cons b l ih =>
      intro a r hr
      cases hr with
      | cons _ hr =>
        -- `b` is left out
        refine le_trans (ih a r hr) ?_
        cases l with
        | nil => rw [walked_one, walked_cons, walked_one]; have := hs.nonneg a b; linarith
        | cons c l =>
          rw [walked_cons, walked_cons, walked_cons]
          have := hs.tri a b c
          linarith
      | cons_cons _ hr =>
        rw [walked, walked]
        have := ih b _ hr
        linarith
  have sub : ∀ (l r : List Vtx), r.Sublist l → walked s.dist r ≤ walked s.dist l := by
    intro l
    induction l with
    | nil => intro r hr; rw [List.sublist_nil.1 hr]
    | cons a l ih =>
      intro r hr
      cases hr with
      | cons _ hr => exact le_trans (ih _ hr) (hcons a l)
      | cons_cons _ hr => exact detour l a _ hr
  refine ⟨?_, ?_, ?_⟩
  · rw [C140_length s _ (by simpa using h), C140_length s _ h, walked_reverse _ hs.symm]
  · intro ws hw hsub
    exact ⟨_, _, C140_length s _ hw, C140_length s _ h, sub _ _ hsub⟩
  · intro i j p q hij hp hq
    refine ⟨_, C140_length s _ h, ?_, nonneg _⟩
    intro hlt
    have hs2 : [p, q].Sublist vs := by
      obtain ⟨hi, rfl⟩ := List.getElem?_eq_some_iff.1 hp
      obtain ⟨hj, rfl⟩ := List.getElem?_eq_some_iff.1 hq
      have e1 : vs = vs.take j ++ vs.drop j := (List.take_append_drop j vs).symm
      have a1 : [vs[i]].Sublist (vs.take j) := by
        rw [List.singleton_sublist]
        exact List.mem_take_iff_getElem.2 ⟨i, by omega, rfl⟩
      have a2 : [vs[j]].Sublist (vs.drop j) := by
        rw [List.singleton_sublist]
        exact List.mem_drop_iff_getElem.2 ⟨0, by simpa using hj, by simp⟩
      have a3 := List.Sublist.append a1 a2
      rwa [← e1] at a3
    have := sub _ _ hs2
    simpa [walked] using this

/-- C140.  In planar systems the distance is a metric, so that all of the above holds. -/
theorem C140_planar : Metric Sys.planar.dist := planar_metric

/-- C140.  Moving all vertices by a map that multiplies all distances by `k` (a shift or a rotation for `k = 1`) multiplies the length
by `k`. -/
theorem C140_scaled (s t : Sys) (f : Vtx → Vtx) (k : ℝ) (hf : ∀ a b, t.dist (f a) (f b) = k * s.dist a b) (vs : List Vtx)
    (h : vs ≠ []) : ∃ x, lineLength s vs = .ok x ∧ lineLength t (vs.map f) = .ok (k * x) := by
  refine ⟨_, C140_length s _ h, ?_⟩
  rw [C140_length t _ (by simpa using h)]
  congr 1
  induction vs with
  | nil => exact absurd rfl h
  | cons a l ih =>
    cases l with
    | nil => simp [walked]
    | cons b l =>
      have := ih (by simp)
      simp only [List.map_cons, walked] at this ⊢
      rw [this, hf]; ring

/-- C140, for vertices with two coordinates in planar systems: the length is the last of the cumulative lengths and at least the
displacement, both of which are computed from `Point.distance`.  Missing for the full C140: vertices with heights. -/
theorem C140_agrees_partial (vs : List (ℝ × ℝ)) (h : vs ≠ []) :
    ∃ x l d, lineLength .planar (vs.map Along.pt) = .ok x ∧ Along.cumulength vs = .ok l ∧ l.getLast? = some x ∧
      Along.displacement vs = .ok d ∧ d ≤ x := by
  have hd : ∀ p q, Along.dist p q = Sys.planar.dist (Along.pt p) (Along.pt q) := by
    intro p q
    unfold Along.dist
    rw [C86_planar _ _ rfl rfl]
    rfl
  have hgo : ∀ (r : List (ℝ × ℝ)) (a : ℝ × ℝ) (s : ℝ),
      (s :: Along.cumulengthGo a s r).getLast? = some (s + walked Sys.planar.dist ((a :: r).map Along.pt)) := by
    intro r
    induction r with
    | nil => intro a s; simp [Along.cumulengthGo, walked]
    | cons b r ih =>
      intro a s
      have := ih b (Along.dist a b + s)
      rw [Along.cumulengthGo, List.getLast?_cons_cons, this]
      simp only [List.map_cons, walked, hd]
      congr 1; ring
  have hn : vs.map Along.pt ≠ [] := by simpa using h
  obtain ⟨a, r, rfl⟩ := List.exists_cons_of_ne_nil h
  refine ⟨_, _, _, C140_length .planar _ hn, rfl, ?_, rfl, ?_⟩
  · rw [hgo, zero_add]
  · rw [hd]
    have hl : (((a :: r).map Along.pt)[(r.length)]?) = some (Along.pt ((a :: r).getLast (by simp))) := by
      rw [List.getElem?_map, List.getLast_eq_getElem]
      simp
    obtain ⟨y, hy, h1, h2⟩ := (C140_metric .planar planar_metric _ hn).2.2 0 r.length _ _ (Nat.zero_le _) rfl hl
    rw [C140_length .planar _ hn, Except.ok.injEq] at hy
    rw [hy]
    by_cases h0 : 0 < r.length
    · exact h1 h0
    · have : r = [] := List.length_eq_zero_iff.1 (by omega)
      subst this
      have : Sys.planar.dist (Along.pt a) (Along.pt a) = 0 := by
        unfold Sys.dist planeDistance; simp
      simp only [List.getLast_singleton]
      rw [this]
      exact h2

/-- C140 is violated for vertices with heights: a line that goes straight up by one has length 0, although its ends are at distance
one. -/
theorem C140_violated_height :
    lineLength .planar [⟨0, 0, some 0⟩, ⟨0, 0, some 1⟩] = .ok 0 ∧ distance ⟨0, 0, some 0⟩ ⟨0, 0, some 1⟩ = 1 := by
  constructor
  · simp [lineLength, planarLoop]
  · simp [distance]

/-! ### Perimeters -/

theorem sumLengths_eq (s : Sys) (es : List (Vtx × Vtx)) (d : ℝ) :
    sumLengths s (es.map fun e => [e.1, e.2]) d = .ok (d + (es.map fun e => s.dist e.1 e.2).sum) := by
  induction es generalizing d with
  | nil => simp [sumLengths]
  | cons e es ih =>
    rw [List.map_cons, sumLengths, C140_length s _ (by simp)]
    simp only
    rw [ih, List.map_cons, List.sum_cons, walked_cons, walked_one]
    congr 1; ring

theorem walked_zip (d : Vtx → Vtx → ℝ) (a : Vtx) (r : List Vtx) :
    ((List.zip (a :: r) r).map fun e => d e.1 e.2).sum = walked d (a :: r) := by
  induction r generalizing a with
  | nil => simp [walked]
  | cons b r ih => rw [List.zip_cons_cons, List.map_cons, List.sum_cons, ih, walked]

theorem round_eq (d : Vtx → Vtx → ℝ) (a : Vtx) (r : List Vtx) :
    round d (a :: r) = walked d (a :: r) + d ((a :: r).getLast (by simp)) a := by
  have e : (a :: r) = (a :: r).dropLast ++ [(a :: r).getLast (by simp)] := (List.dropLast_append_getLast _).symm
  show walked d ((a :: r) ++ [a]) = _
  have h2 : walked d ((a :: r) ++ [a]) = walked d ((a :: r).dropLast ++ ((a :: r).getLast (by simp) :: [a])) := by
    congr 1
    conv_lhs => rw [e]
    simp
  rw [h2, walked_append, ← e, walked_cons, walked_one, add_zero]

mutual
theorem perimeter_eq (s : Sys) : ∀ P : Region, P.Proper → P.perimeter s = .ok (P.boundary s.dist)
  | .mk ring subs, h => by
    obtain ⟨h1, h2⟩ := h
    obtain ⟨a, r, rfl⟩ := List.exists_cons_of_ne_nil h1
    rw [Region.perimeter, segments]
    have e : (List.zip (a :: r) r).map (fun e : Vtx × Vtx => [e.1, e.2]) ++ [[(a :: r).getLast (by simp), a]] =
        (List.zip (a :: r) r ++ [((a :: r).getLast (by simp), a)]).map fun e => [e.1, e.2] := by simp
    simp only [e, sumLengths_eq, perimeters_eq s subs h2]
    rw [List.map_append, List.sum_append, walked_zip, Region.boundary, round_eq]
    simp
theorem perimeters_eq (s : Sys) : ∀ (l : List Region), Region.AllProper l → ∀ d, Region.perimeters s l d = .ok (d + Region.boundaries s.dist l)
  | [], _, d => by rw [Region.perimeters, Region.boundaries, add_zero]
  | P :: l, h, d => by
    rw [Region.perimeters, perimeter_eq s P h.1]
    simp only
    rw [perimeters_eq s l h.2, Region.boundaries, add_assoc]
end

/-- C140.  The perimeter of a polygon is the length of the way round its ring and back to the first vertex, plus the perimeters of its
sub-polygons at every level. -/
theorem C140_perimeter (s : Sys) (P : Region) (h : P.Proper) : P.perimeter s = .ok (P.boundary s.dist) := perimeter_eq s P h

/-- C140.  The perimeter does not depend on the vertex at which the ring starts nor, for a symmetric distance, on its direction. -/
theorem C140_perimeter_invariant (s : Sys) (ring : List Vtx) (hr : ring ≠ []) (subs : List Region) (h : Region.AllProper subs) (k : Nat) :
    (Region.mk (ring.rotate k) subs).perimeter s = (Region.mk ring subs).perimeter s ∧
    ((∀ a b, s.dist a b = s.dist b a) → (Region.mk ring.reverse subs).perimeter s = (Region.mk ring subs).perimeter s) := by
  have one : ∀ l : List Vtx, round s.dist (l.rotate 1) = round s.dist l := by
    intro l
    cases l with
    | nil => rfl
    | cons a l =>
      cases l with
      | nil => simp
      | cons b l =>
        rw [List.rotate_cons_succ, List.rotate_zero]
        show walked s.dist ((b :: l ++ [a]) ++ [b]) = walked s.dist (a :: b :: l ++ [a])
        rw [List.append_assoc, List.singleton_append, walked_append]
        simp only [List.cons_append, walked]
        ring
  have rot : ∀ (k : Nat) (l : List Vtx), round s.dist (l.rotate k) = round s.dist l := by
    intro k
    induction k with
    | zero => intro l; rw [List.rotate_zero]
    | succ k ih => intro l; rw [← List.rotate_rotate, one, ih]
  have p1 : ∀ l : List Vtx, l ≠ [] → (Region.mk l subs).perimeter s = .ok (round s.dist l + Region.boundaries s.dist subs) := by
    intro l hl
    rw [C140_perimeter s (.mk l subs) ⟨hl, h⟩, Region.boundary]
  refine ⟨?_, ?_⟩
  · rw [p1 _ (by simpa using hr), p1 _ hr, rot]
  · intro hsym
    rw [p1 _ (by simpa using hr), p1 _ hr]
    obtain ⟨a, r, rfl⟩ := List.exists_cons_of_ne_nil hr
    have hrev : (a :: r).reverse = (a :: r.reverse).rotate 1 := by
      rw [List.reverse_cons, List.rotate_cons_succ, List.rotate_zero]
    rw [hrev, rot]
    have : round s.dist (a :: r.reverse) = round s.dist (a :: r) := by
      show walked s.dist (a :: r.reverse ++ [a]) = walked s.dist (a :: r ++ [a])
      rw [← walked_reverse _ hsym (a :: r ++ [a])]
      simp
    rw [this]

/-- C140, planar systems: the perimeter of a rectangle is twice the sum of its sides. -/
example (w h : ℝ) (hw : 0 ≤ w) (hh : 0 ≤ h) :
    (Region.mk [⟨0, 0, none⟩, ⟨w, 0, none⟩, ⟨w, h, none⟩, ⟨0, h, none⟩] []).perimeter .planar = .ok (2 * w + 2 * h) := by
  rw [C140_perimeter _ (.mk _ []) ⟨by simp, trivial⟩]
  simp only [Region.boundary, Region.boundaries, round, walked, List.cons_append, List.nil_append, Sys.dist, planeDistance]
  congr 1
  simp only [sub_zero, sub_self, zero_sub, ne_eq, OfNat.ofNat_ne_zero, not_false_eq_true, zero_pow, add_zero, zero_add, neg_sq,
    Real.sqrt_sq hw, Real.sqrt_sq hh]
  ring

/-- C140: a shift multiplies planar distances by one. -/
example (u v : ℝ) (a b : Vtx) :
    Sys.planar.dist ⟨a.x + u, a.y + v, a.z⟩ ⟨b.x + u, b.y + v, b.z⟩ = 1 * Sys.planar.dist a b := by
  simp only [Sys.dist, planeDistance, one_mul]
  congr 1; ring

/-- C140: a geographical system with great-circle distances on the unit sphere is a metric one. -/
example : Metric (Sys.geo fun lon1 lat1 lon2 lat2 => (0, 0, Karta.Geod.Sphere.sphereDistance lon1 lat1 lon2 lat2 1)).dist :=
  ⟨fun a b => (Karta.Geod.Sphere.C87_metric a.x a.y b.x b.y b.x b.y 1 one_pos).2.1, fun a b => (Karta.Geod.Sphere.C87_metric a.x a.y b.x b.y b.x b.y 1 one_pos).1,
    fun a b c => (Karta.Geod.Sphere.C87_metric a.x a.y b.x b.y c.x c.y 1 one_pos).2.2.2.2⟩

end Karta.Length
