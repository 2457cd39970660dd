import Verif.Float.Units
import Verif.Vec.PolygonProps

/-!
Model of `contains` (`/repo/karta/vector/contains.pyx`) with rounded arithmetic, and property C147.
-/

namespace Karta.Float
open Karta Karta.Vec

variable (R : Rounding)

/-- `isleft` (contains.pyx 6-11).  Simplification: the compiler is assumed not to fuse products and differences. -/
def isleftF (pt pt0 pt1 : Pt) : ℚ :=
  R.fl (R.fl (R.fl (pt1.x - pt0.x) * R.fl (pt.y - pt0.y)) - R.fl (R.fl (pt.x - pt0.x) * R.fl (pt1.y - pt0.y)))

/-- One pass of the loop of `contains` (contains.pyx 32-39): the change to the counter. -/
def windStepF (pt : Pt) (e : Pt × Pt) : Int :=
  if e.1.y ≤ pt.y ∧ pt.y < e.2.y then
    if isleftF R pt e.1 e.2 > 0 then 1 else 0
  else if e.1.y > pt.y ∧ pt.y ≥ e.2.y then
    if isleftF R pt e.1 e.2 < 0 then -1 else 0
  else 0

/-- `contains` (contains.pyx 13-42) on a ring. -/
def ringContainsF (pt : Pt) (ps : List Pt) : Bool :=
  decide ((ringEdges ps).foldl (fun cnt e => cnt + windStepF R pt e) 0 ≠ 0)

mutual
/-- `Polygon.contains` for planar coordinates (geometry.py 1172-1174). -/
def containsF (pt : Pt) : Poly → Bool
  | .mk ring subs => ringContainsF R pt ring && !(anyContainsF pt subs)
/-- `any(p.contains(point) for p in self.subs)` (geometry.py 1174). -/
def anyContainsF (pt : Pt) : List Poly → Bool
  | [] => false
  | p :: ps => containsF pt p || anyContainsF pt ps
end

/-! ### Specification -/

mutual
/-- The rings of a polygon and of its sub-polygons. -/
def ringsOf : Poly → List (List Pt)
  | .mk ring subs => ring :: ringsOfAll subs
/-- The rings of a list of polygons. -/
def ringsOfAll : List Poly → List (List Pt)
  | [] => []
  | p :: ps => ringsOf p ++ ringsOfAll ps
end

/-- The point is clear of the line through an edge: its distance from the line, times the length of the edge, exceeds the rounding errors
of the two products whose difference it is. -/
def Clear (pt : Pt) (e : Pt × Pt) : Prop :=
  1 / 2 ^ 51 * (|(e.2.x - e.1.x) * (pt.y - e.1.y)| + |(pt.x - e.1.x) * (e.2.y - e.1.y)|)
    < |(e.2.x - e.1.x) * (pt.y - e.1.y) - (pt.x - e.1.x) * (e.2.y - e.1.y)|

/-- The height of the point is within that of the edge. -/
def Beside (pt : Pt) (e : Pt × Pt) : Prop := (e.1.y ≤ pt.y ∧ pt.y < e.2.y) ∨ (e.2.y ≤ pt.y ∧ pt.y < e.1.y)

/-! ### Helpers -/

variable {R}

theorem product_err (a b : ℚ) : |R.fl (R.fl a * R.fl b) - a * b| ≤ 1 / 2 ^ 51 * |a * b| := by
  obtain ⟨d1, h1, e1⟩ := R.rel a
  obtain ⟨d2, h2, e2⟩ := R.rel b
  obtain ⟨d3, h3, e3⟩ := R.rel (R.fl a * R.fl b)
  have e : R.fl (R.fl a * R.fl b) - a * b = a * b * (d1 + d2 + d3 + d1 * d2 + d1 * d3 + d2 * d3 + d1 * d2 * d3) := by
    rw [e3, e1, e2]; ring
  rw [e, abs_mul, mul_comm]
  refine mul_le_mul_of_nonneg_right ?_ (abs_nonneg _)
  have u : (0 : ℚ) ≤ 1 / 2 ^ 53 := by norm_num
  have p12 : |d1 * d2| ≤ 1 / 2 ^ 53 * (1 / 2 ^ 53) := by rw [abs_mul]; exact mul_le_mul h1 h2 (abs_nonneg _) u
  have p13 : |d1 * d3| ≤ 1 / 2 ^ 53 * (1 / 2 ^ 53) := by rw [abs_mul]; exact mul_le_mul h1 h3 (abs_nonneg _) u
  have p23 : |d2 * d3| ≤ 1 / 2 ^ 53 * (1 / 2 ^ 53) := by rw [abs_mul]; exact mul_le_mul h2 h3 (abs_nonneg _) u
  have p123 : |d1 * d2 * d3| ≤ 1 / 2 ^ 53 * (1 / 2 ^ 53) * (1 / 2 ^ 53) := by
    rw [abs_mul]; exact mul_le_mul p12 h3 (abs_nonneg _) (by norm_num)
  rw [abs_le] at *
  norm_num at *
  constructor <;> linarith [h1.1, h1.2, h2.1, h2.2, h3.1, h3.2, p12.1, p12.2, p13.1, p13.2, p23.1, p23.2, p123.1, p123.2]

theorem isleftF_sign {pt a b : Pt} (h : Clear pt (a, b)) :
    (isleftF R pt a b > 0 ↔ isleft pt a b > 0) ∧ (isleftF R pt a b < 0 ↔ isleft pt a b < 0) := by
  unfold Clear at h
  dsimp only at h
  have e1 := product_err (R := R) (b.x - a.x) (pt.y - a.y)
  have e2 := product_err (R := R) (pt.x - a.x) (b.y - a.y)
  unfold isleftF isleft
  set P := R.fl (R.fl (b.x - a.x) * R.fl (pt.y - a.y))
  set Q := R.fl (R.fl (pt.x - a.x) * R.fl (b.y - a.y))
  set p := (b.x - a.x) * (pt.y - a.y)
  set q := (pt.x - a.x) * (b.y - a.y)
  have pos : ∀ x : ℚ, R.fl x > 0 ↔ x > 0 := by
    intro x
    constructor
    · intro hx
      by_contra hc
      exact absurd (R.nonpos (not_lt.1 hc)) (not_le.2 hx)
    · exact R.pos
  have neg : ∀ x : ℚ, R.fl x < 0 ↔ x < 0 := by
    intro x
    constructor
    · intro hx
      by_contra hc
      exact absurd (R.nonneg (not_lt.1 hc)) (not_le.2 hx)
    · exact R.neg
  rw [pos, neg]
  rw [abs_le] at e1 e2
  rcases abs_cases (p - q) with ⟨h1, h2⟩ | ⟨h1, h2⟩
  · rw [h1] at h
    have hd : 0 < P - Q := by linarith [e1.1, e2.2]
    have hl : 0 < p - q := by
      have : 0 ≤ 1 / 2 ^ 51 * (|p| + |q|) := by positivity
      linarith
    exact ⟨⟨fun _ => hl, fun _ => hd⟩, ⟨fun h => absurd h (not_lt.2 hd.le), fun h => absurd h (not_lt.2 hl.le)⟩⟩
  · rw [h1] at h
    have hd : P - Q < 0 := by linarith [e1.2, e2.1]
    exact ⟨⟨fun h => absurd h (not_lt.2 hd.le), fun h => absurd h (not_lt.2 h2.le)⟩, ⟨fun _ => h2, fun _ => hd⟩⟩

theorem windStepF_eq {pt : Pt} {e : Pt × Pt} (h : Beside pt e →
    (isleftF R pt e.1 e.2 > 0 ↔ isleft pt e.1 e.2 > 0) ∧ (isleftF R pt e.1 e.2 < 0 ↔ isleft pt e.1 e.2 < 0)) :
    windStepF R pt e = windStep pt e := by
  unfold windStepF windStep
  by_cases c1 : e.1.y ≤ pt.y ∧ pt.y < e.2.y
  · rw [if_pos c1, if_pos c1]
    have := (h (Or.inl c1)).1
    by_cases c : isleft pt e.1 e.2 > 0
    · rw [if_pos c, if_pos (this.2 c)]
    · rw [if_neg c, if_neg fun hh => c (this.1 hh)]
  · rw [if_neg c1, if_neg c1]
    by_cases c2 : e.1.y > pt.y ∧ pt.y ≥ e.2.y
    · rw [if_pos c2, if_pos c2]
      have := (h (Or.inr ⟨c2.2, c2.1⟩)).2
      by_cases c : isleft pt e.1 e.2 < 0
      · rw [if_pos c, if_pos (this.2 c)]
      · rw [if_neg c, if_neg fun hh => c (this.1 hh)]
    · rw [if_neg c2, if_neg c2]

theorem ringContainsF_eq {pt : Pt} {ps : List Pt} (h : ∀ e ∈ ringEdges ps, windStepF R pt e = windStep pt e) :
    ringContainsF R pt ps = ringContains pt ps := by
  unfold ringContainsF ringContains windCount
  have : ∀ (l : List (Pt × Pt)) (c : Int), (∀ e ∈ l, windStepF R pt e = windStep pt e) →
      l.foldl (fun cnt e => cnt + windStepF R pt e) c = l.foldl (fun cnt e => cnt + windStep pt e) c := by
    intro l
    induction l with
    | nil => intro c _; rfl
    | cons e l ih =>
      intro c hl
      rw [List.foldl_cons, List.foldl_cons, hl e (by simp)]
      exact ih _ fun e' he' => hl e' (List.mem_cons_of_mem _ he')
  rw [this _ _ h]

mutual
theorem containsF_eq {pt : Pt} : ∀ (p : Poly), (∀ ring ∈ ringsOf p, ringContainsF R pt ring = ringContains pt ring) →
    containsF R pt p = p.contains pt
  | .mk ring subs, h => by
    unfold containsF Poly.contains
    rw [h ring (by rw [ringsOf]; simp), anyContainsF_eq subs (fun r hr => h r (by rw [ringsOf]; exact List.mem_cons_of_mem _ hr))]
theorem anyContainsF_eq {pt : Pt} : ∀ (ps : List Poly), (∀ ring ∈ ringsOfAll ps, ringContainsF R pt ring = ringContains pt ring) →
    anyContainsF R pt ps = Poly.anyContains pt ps
  | [], _ => rfl
  | p :: ps, h => by
    unfold anyContainsF Poly.anyContains
    rw [containsF_eq p (fun r hr => h r (by rw [ringsOfAll]; exact List.mem_append_left _ hr)),
      anyContainsF_eq ps (fun r hr => h r (by rw [ringsOfAll]; exact List.mem_append_right _ hr))]
end

/-! ### C147 -/

/-- C147, points clear of the edges: `contains` gives the same answer as without rounding, for any polygon with any coordinates, as long as
the point is not very close to the line through one of the edges beside it.

Missing for the full claim: points closer to an edge, for which it fails (below). -/
theorem C147_clear_partial (R : Rounding) (pt : Pt) (p : Poly)
    (h : ∀ ring ∈ ringsOf p, ∀ e ∈ ringEdges ring, Beside pt e → Clear pt e) : containsF R pt p = p.contains pt :=
  containsF_eq p fun ring hr => ringContainsF_eq fun e he => windStepF_eq fun hb => isleftF_sign (h ring hr e he hb)

/-- C147, whole units: `contains` gives the same answer as without rounding for every point, also on the boundary, if all coordinates are
whole multiples of a power of two, at most `2 ^ 24` times. -/
theorem C147_units_partial (R : Rounding) {k : ℤ} (pt : Pt) (p : Poly) (hp : InUnits k (2 ^ 24) pt.x ∧ InUnits k (2 ^ 24) pt.y)
    (h : ∀ ring ∈ ringsOf p, ∀ v ∈ ring, InUnits k (2 ^ 24) v.x ∧ InUnits k (2 ^ 24) v.y) : containsF R pt p = p.contains pt := by
  refine containsF_eq p fun ring hr => ringContainsF_eq fun e he => windStepF_eq fun _ => ?_
  have hv : e.1 ∈ ring ∧ e.2 ∈ ring := by
    unfold ringEdges at he
    have := List.of_mem_zip he
    exact ⟨by simpa using this.1, by simpa using this.2⟩
  obtain ⟨ax, ay⟩ := h ring hr e.1 hv.1
  obtain ⟨bx, bY⟩ := h ring hr e.2 hv.2
  have d1 := bx.sub ax
  have d2 := hp.2.sub ay
  have d3 := hp.1.sub ax
  have d4 := bY.sub ay
  have p1 := d1.mul d2
  have p2 := d3.mul d4
  have e1 : isleftF R pt e.1 e.2 = isleft pt e.1 e.2 := by
    unfold isleftF isleft
    rw [d1.exact R (by norm_num), d2.exact R (by norm_num), d3.exact R (by norm_num), d4.exact R (by norm_num),
      p1.exact R (by norm_num), p2.exact R (by norm_num), (p1.sub p2).exact R (by norm_num)]
  rw [e1]
  exact ⟨Iff.rfl, Iff.rfl⟩

/-- A square with a hole and a point beside the hole. -/
def holed : Poly := .mk [⟨0, 0⟩, ⟨4, 0⟩, ⟨4, 4⟩, ⟨0, 4⟩] [.mk [⟨1, 1⟩, ⟨2, 1⟩, ⟨2, 2⟩, ⟨1, 2⟩] []]

example : containsF double ⟨5 / 2, 3 / 2⟩ holed = true ∧ ∀ ring ∈ ringsOf holed, ∀ e ∈ ringEdges ring, Beside ⟨5 / 2, 3 / 2⟩ e →
    Clear ⟨5 / 2, 3 / 2⟩ e := by
  unfold Beside Clear
  decide +kernel

example : ∀ ring ∈ ringsOf holed, ∀ v ∈ ring, InUnits 0 (2 ^ 24) v.x ∧ InUnits 0 (2 ^ 24) v.y := by
  have one : ∀ n : ℤ, |n| ≤ 2 ^ 24 → InUnits 0 (2 ^ 24) (n : ℚ) := fun n hn => ⟨n, hn, by norm_num⟩
  have : ∀ ring ∈ ringsOf holed, ∀ v ∈ ring, (∃ n : Fin 5, v.x = n.val) ∧ ∃ n : Fin 5, v.y = n.val := by decide +kernel
  intro ring hr v hv
  obtain ⟨⟨n, e1⟩, m, e2⟩ := this ring hr v hv
  rw [e1, e2]
  have b : ∀ n : Fin 5, |((n.val : ℤ))| ≤ 2 ^ 24 := by decide
  exact ⟨by exact_mod_cast one n.val (b n), by exact_mod_cast one m.val (b m)⟩

/-- C147 is violated: the quadrilateral `(0, 0), (2, 0.5), (0.2, 1), (-1, 0.5)` contains the point `(0.06, 0.3)`, but neither of the two
triangles into which the line from `(0, 0)` to `(0.2, 1)` cuts it does. -/
theorem C147_violated_gap :
    containsF double ⟨rnd (6 / 100), rnd (3 / 10)⟩ (.mk [⟨0, 0⟩, ⟨2, 1 / 2⟩, ⟨rnd (2 / 10), 1⟩, ⟨-1, 1 / 2⟩] []) = true ∧
    containsF double ⟨rnd (6 / 100), rnd (3 / 10)⟩ (.mk [⟨0, 0⟩, ⟨2, 1 / 2⟩, ⟨rnd (2 / 10), 1⟩] []) = false ∧
    containsF double ⟨rnd (6 / 100), rnd (3 / 10)⟩ (.mk [⟨0, 0⟩, ⟨rnd (2 / 10), 1⟩, ⟨-1, 1 / 2⟩] []) = false := by
  decide +kernel

/-- C147 is violated: the point `(0.04, 0.1)` is contained in both triangles into which the line from `(0, 0)` to `(0.4, 1)` cuts a
quadrilateral, although without rounding it lies in one of them only. -/
theorem C147_violated_both :
    containsF double ⟨rnd (4 / 100), rnd (1 / 10)⟩ (.mk [⟨0, 0⟩, ⟨2, 1 / 2⟩, ⟨rnd (4 / 10), 1⟩] []) = true ∧
    containsF double ⟨rnd (4 / 100), rnd (1 / 10)⟩ (.mk [⟨0, 0⟩, ⟨rnd (4 / 10), 1⟩, ⟨-1, 1 / 2⟩] []) = true ∧
    (Poly.contains ⟨rnd (4 / 100), rnd (1 / 10)⟩ (.mk [⟨0, 0⟩, ⟨2, 1 / 2⟩, ⟨rnd (4 / 10), 1⟩] []) = true ↔
      Poly.contains ⟨rnd (4 / 100), rnd (1 / 10)⟩ (.mk [⟨0, 0⟩, ⟨rnd (4 / 10), 1⟩, ⟨-1, 1 / 2⟩] []) = false) := by
  decide +kernel

end Karta.Float
