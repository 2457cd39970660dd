import Verif.Vec.Objects
import Verif.Geod.Plane
import Mathlib.Analysis.InnerProductSpace.PiL2

/-!
# Distances from all vertices to a point

Model of `flat_distances_to` and `distances_to` of lines, polygons and multipoints (karta/vector/geometry.py 564-574) and of
`Point.distance` and `Point.vertex` (135-140, 260-313) for points in planar systems.

Simplifications: real numbers; rounding of planar distances is modelled in `Verif.Float.Length`.  `CoordString` (package coordstring) is a
list of vertices; `asarray()` gives an array with one row for each.  `move` is `pyproj.transform` of one position.
-/

namespace Karta.FlatDist
open Karta Karta.Obj Karta.Geod

/-- A row of `asarray()`, and `np.array(pt._vertex)` (geometry.py 566-567). -/
def row (v : Vtx) : List ℝ :=
  match v.z with
  | none => [v.x, v.y]
  | some z => [v.x, v.y, z]

/-- `flat_distances_to` (geometry.py 564-569).  `A-P` of arrays with two and with three columns raises `ValueError`. -/
noncomputable def flatDistancesTo (g : List Vtx) (p : Vtx) : Except Err (List ℝ) :=
  if ∃ a ∈ g, (row a).length ≠ (row p).length then .error .valueError
  else .ok (g.map fun a => Real.sqrt ((List.zipWith (fun u v => (u - v) ^ 2) (row a) (row p)).sum))

/-- `other.vertex(self.crs)[:2]` (geometry.py 135-140, 303); systems without projection cannot be converted (crs.py 200-202, 297-298). -/
noncomputable def groundIn (move : Crs → Crs → ℝ × ℝ → ℝ × ℝ) (own c : Crs) (v : Vtx) : Except Err (ℝ × ℝ) :=
  if c.eq own then .ok (v.x, v.y)
  else if own.kind = .cartesian then .error .notImplemented
  else if c.kind = .cartesian then .error .attributeError
  else .ok (move own c (v.x, v.y))

/-- `pt.distance(a)` (geometry.py 260-313) for a point `p` in a planar system `c` and a point `a` in the system `own`. -/
noncomputable def pointDistance (move : Crs → Crs → ℝ × ℝ → ℝ × ℝ) (c own : Crs) (p a : Vtx) : Except Err ℝ :=
  match groundIn move own c a with
  | .error e => .error e
  | .ok (x1, y1) =>
    let d := Real.sqrt ((x1 - p.x) * (x1 - p.x) + (y1 - p.y) * (y1 - p.y))
    match p.z, a.z with
    | some s, some t => .ok (Real.sqrt (d * d + (s - t) * (s - t)))
    | _, _ => .ok d

/-- `distances_to` (geometry.py 571-574) of a geometry in the system `own`, with a point in the planar system `c`. -/
noncomputable def distancesTo (move : Crs → Crs → ℝ × ℝ → ℝ × ℝ) (own c : Crs) (g : List Vtx) (p : Vtx) : Except Err (List ℝ) :=
  g.mapM fun a => pointDistance move c own p a

/-! ### Specification -/

/-- The position in space; positions without height are in the plane. -/
noncomputable def place (v : Vtx) : EuclideanSpace ℝ (Fin 3) := !₂[v.x, v.y, v.z.getD 0]

/-- The position on the ground. -/
noncomputable def ground (v : Vtx) : EuclideanSpace ℝ (Fin 2) := !₂[v.x, v.y]

/-! ### Theorems -/

theorem dist_place (a b : Vtx) : dist (place a) (place b) = Real.sqrt ((a.x - b.x) ^ 2 + (a.y - b.y) ^ 2 + (a.z.getD 0 - b.z.getD 0) ^ 2) := by
  rw [EuclideanSpace.dist_eq, Fin.sum_univ_three]
  simp [place, Real.dist_eq, sq_abs]

theorem dist_ground (a b : Vtx) : dist (ground a) (ground b) = Real.sqrt ((a.x - b.x) ^ 2 + (a.y - b.y) ^ 2) := by
  rw [EuclideanSpace.dist_eq, Fin.sum_univ_two]
  simp [ground, Real.dist_eq, sq_abs]

theorem mapM_ok {α β : Type} {f : α → Except Err β} {h : α → β} : ∀ (l : List α), (∀ a ∈ l, f a = .ok (h a)) → l.mapM f = .ok (l.map h) := by
  intro l
  induction l with
  | nil => intro _; rfl
  | cons a l ih =>
    intro H
    rw [List.mapM_cons, H a (by simp), ih fun b hb => H b (by simp [hb])]
    rfl

/-- **C182**: with as many coordinates in the point as in the vertices, `flat_distances_to` returns the distance of each vertex in space (or
in the plane), in order. -/
theorem C182_flat (g : List Vtx) (p : Vtx) (h : ∀ a ∈ g, a.z.isSome = p.z.isSome) :
    flatDistancesTo g p = .ok (g.map fun a => dist (place a) (place p)) := by
  have len : ∀ a ∈ g, (row a).length = (row p).length := by
    intro a ha
    have := h a ha
    unfold row
    cases hz : a.z <;> cases hp : p.z <;> simp_all
  unfold flatDistancesTo
  rw [if_neg (by push Not; exact len)]
  congr 1
  apply List.map_congr_left
  intro a ha
  rw [dist_place]
  have := h a ha
  unfold row
  cases hz : a.z <;> cases hp : p.z <;> simp_all [add_assoc]

/-- **C182**: if the point has a height and some vertex has none, or the other way round, `flat_distances_to` raises ValueError, whatever
the coordinates are; -/
theorem C182_other_rank (g : List Vtx) (p : Vtx) (h : ∃ a ∈ g, a.z.isSome ≠ p.z.isSome) : flatDistancesTo g p = .error .valueError := by
  obtain ⟨a, ha, hz⟩ := h
  have len : (row a).length ≠ (row p).length := by
    unfold row
    cases hz' : a.z <;> cases hp : p.z <;> simp_all
  unfold flatDistancesTo
  rw [if_pos ⟨a, ha, len⟩]

/-- while `distances_to` returns the distances on the ground in this case. -/
theorem C182_other_rank_ground (move : Crs → Crs → ℝ × ℝ → ℝ × ℝ) {own c : Crs} (hc : c.eq own = true) (g : List Vtx) (p : Vtx)
    (h : ∀ a ∈ g, a.z.isSome ≠ p.z.isSome) : distancesTo move own c g p = .ok (g.map fun a => dist (ground a) (ground p)) := by
  apply mapM_ok
  intro a ha
  have := h a ha
  unfold pointDistance groundIn
  rw [if_pos hc, dist_ground]
  cases hz : a.z <;> cases hp : p.z <;> simp_all [sq]

/-- **C182**: in one planar system and with as many coordinates both methods return the same distances. -/
theorem C182_agree (move : Crs → Crs → ℝ × ℝ → ℝ × ℝ) {own c : Crs} (hc : c.eq own = true) (g : List Vtx) (p : Vtx)
    (h : ∀ a ∈ g, a.z.isSome = p.z.isSome) : distancesTo move own c g p = flatDistancesTo g p := by
  rw [C182_flat g p h]
  apply mapM_ok
  intro a ha
  have := h a ha
  unfold pointDistance groundIn
  rw [if_pos hc, dist_place]
  cases hz : a.z <;> cases hp : p.z <;> simp_all [sq]
  rename_i s t
  rw [Real.mul_self_sqrt (add_nonneg (mul_self_nonneg _) (mul_self_nonneg _))]
  congr 2
  ring

/-! ### Non-vacuity -/

/-- A projected system. -/
def utm : Crs := ⟨1, .projected, "+proj=utm +zone=7", "+ellps=WGS84", "utm"⟩

/-- Another one. -/
def utm8 : Crs := ⟨2, .projected, "+proj=utm +zone=8", "+ellps=WGS84", "utm8"⟩

example : flatDistancesTo [⟨0, 0, some 0⟩, ⟨1, 2, some 2⟩] ⟨0, 0, some 0⟩ = .ok [0, 3] := by
  rw [C182_flat _ _ (by simp)]
  simp only [List.map_cons, List.map_nil, dist_self, dist_place, Option.getD_some]
  norm_num
  rw [show (9 : ℝ) = 3 ^ 2 by norm_num, Real.sqrt_sq (by norm_num)]

example : flatDistancesTo [⟨0, 0, none⟩, ⟨1, 2, none⟩] ⟨0, 0, some 0⟩ = .error .valueError := C182_other_rank _ _ ⟨⟨0, 0, none⟩, by simp, by simp⟩

example (move : Crs → Crs → ℝ × ℝ → ℝ × ℝ) : distancesTo move utm utm [⟨3, 4, none⟩] ⟨0, 0, some 7⟩ = .ok [5] := by
  rw [C182_other_rank_ground move (by decide) _ _ (by simp)]
  simp only [List.map_cons, List.map_nil, dist_ground]
  norm_num
  rw [show (25 : ℝ) = 5 ^ 2 by norm_num, Real.sqrt_sq (by norm_num)]

example (move : Crs → Crs → ℝ × ℝ → ℝ × ℝ) : distancesTo move utm utm [⟨3, 4, none⟩, ⟨0, 1, none⟩] ⟨0, 0, none⟩ =
    flatDistancesTo [⟨3, 4, none⟩, ⟨0, 1, none⟩] ⟨0, 0, none⟩ := C182_agree move (by decide) _ _ (by simp)

/-! ### Points in another system -/

/-- **C182**: for a point in another planar system `flat_distances_to` compares coordinates of different systems: the point that a vertex
is converted to is not at distance zero, but for `distances_to` it is. -/
theorem C182_violated_other_system : ∃ (move : Crs → Crs → ℝ × ℝ → ℝ × ℝ) (own c : Crs) (a p : Vtx),
    own.kind = .projected ∧ c.kind = .projected ∧ (∀ q, move c own (move own c q) = q) ∧
    distancesTo move own c [a] p = .ok [0] ∧ flatDistancesTo [a] p = .ok [6] := by
  refine ⟨fun s t q => if s = utm ∧ t = utm8 then (q.1 - 6, q.2) else if s = utm8 ∧ t = utm then (q.1 + 6, q.2) else q, utm, utm8,
    ⟨8, 1, none⟩, ⟨2, 1, none⟩, rfl, rfl, ?_, ?_, ?_⟩
  · intro q
    have h1 : ¬ (utm8 = utm ∧ utm = utm8) := by decide
    simp [h1]
  · have e : utm8.eq utm = false := by decide
    have k : utm.kind = .projected := rfl
    have k' : utm8.kind = .projected := rfl
    refine (mapM_ok (h := fun _ => 0) _ ?_).trans (by simp)
    intro a ha
    rw [List.mem_singleton] at ha
    subst ha
    unfold pointDistance groundIn
    rw [e]
    simp [k, k']
    norm_num
  · rw [C182_flat _ _ (by simp)]
    simp only [List.map_cons, List.map_nil, dist_place, Option.getD_none]
    norm_num
    rw [show (36 : ℝ) = 6 ^ 2 by norm_num, Real.sqrt_sq (by norm_num)]

end Karta.FlatDist
