import Verif.Vec.Basic
import Mathlib.Data.List.Sort

/-!
Model of the planar convex hull (karta/vector/convexhull.pyx 6-82, karta/vector/geometry.py 600-613).

Numbers are exact rationals.  The azimuth `pi/2 - atan2(dx, dy)` of a vertex as seen from the leftmost
vertex is represented by the key `dirKey`, which is ordered in the same way because no vertex lies to the
left of the leftmost one (theorem `dirKey_order` in HullAngle): straight down, then by slope, and last the
value pi/2, which `atan2(0, 0) = 0` gives to copies of the leftmost vertex itself.  Distances are compared
by their squares.  A coordinate string marked as a ring is read one vertex further, back to the first.
-/

namespace Karta.Vec.Hull
open Karta Karta.Vec

/-- The vertices read by `getX(i)`, `getY(i)` for `i < n` (convexhull.pyx 21-23). -/
def readPts (ring : Bool) (ps : List Pt) : List Pt := if ring then ps ++ ps.head?.toList else ps

/-- Vertex number `i`. -/
def ptAt (P : List Pt) (i : Nat) : Pt := P.getD i ⟨0, 0⟩

/-- The quantity whose sign `isleft` tests (convexhull.pyx 6-9). -/
def turn {K : Type} [Ring K] (a b c : P2 K) : K := (b.x - a.x) * (c.y - a.y) - (b.y - a.y) * (c.x - a.x)

/-- `isleft` (convexhull.pyx 6-9). -/
def isleft {K : Type} [Ring K] [LinearOrder K] (a b c : P2 K) : Bool := decide (0 < turn a b c)

/-- One round of the search for the leftmost, and among these uppermost, vertex (convexhull.pyx 28-35). -/
def leftmostStep (P : List Pt) (best i : Nat) : Nat :=
  if (ptAt P i).x < (ptAt P best).x then i
  else if (ptAt P i).x = (ptAt P best).x ∧ (ptAt P i).y > (ptAt P best).y then i
  else best

/-- Index of the leftmost vertex (convexhull.pyx 24-35). -/
def leftmost (P : List Pt) : Nat := (List.range' 1 (P.length - 1)).foldl (leftmostStep P) 0

/-- The azimuth of `p` as seen from `L`, as an ordered key (convexhull.pyx 46). -/
def dirKey (L p : Pt) : Nat × ℚ :=
  if p.x = L.x then (if p.y = L.y then (2, 0) else (0, 0)) else (1, (p.y - L.y) / (p.x - L.x))

/-- The order of the pairs `(az, i)` (convexhull.pyx 47-49). -/
def azLe (a b : (Nat × ℚ) × Nat) : Prop :=
  a.1.1 < b.1.1 ∨ (a.1.1 = b.1.1 ∧ (a.1.2 < b.1.2 ∨ (a.1.2 = b.1.2 ∧ a.2 ≤ b.2)))

instance (a b : (Nat × ℚ) × Nat) : Decidable (azLe a b) := by unfold azLe; infer_instance

/-- `azimuth_indices` (convexhull.pyx 37-49). -/
def azimuthIndices (P : List Pt) : List ((Nat × ℚ) × Nat) :=
  List.insertionSort azLe
    (((List.range P.length).filter fun i => i ≠ leftmost P).map fun i => (dirKey (ptAt P (leftmost P)) (ptAt P i), i))

/-- Square of `dist2` (vectorgeo.pyx 36-37). -/
def sqDist (a b : Pt) : ℚ := (a.x - b.x) ^ 2 + (a.y - b.y) ^ 2

/-- The loop that drops vertices in the same direction (convexhull.pyx 51-66).  `last` is not moved on when
a new direction begins, and `lastpt` is looked up with a position in `azimuth_indices` instead of a vertex
index. -/
def dedup (P : List Pt) (L : Pt) (az : List ((Nat × ℚ) × Nat)) :
    List ((Nat × ℚ) × Nat) → (i last : Nat) → (lastpt : Pt) → (indices : List Nat) → List Nat
  | [], _, _, _, indices => indices
  | e :: es, i, last, lastpt, indices =>
    if e.1 = (az.getD last ((0, 0), 0)).1 then
      if sqDist L (ptAt P e.2) > sqDist L lastpt then
        dedup P L az es (i + 1) i (ptAt P i) (indices.dropLast ++ [e.2])
      else dedup P L az es (i + 1) last lastpt indices
    else dedup P L az es (i + 1) last lastpt (indices ++ [e.2])

/-- `while not isleft(hull[-2], hull[-1], i): hull.pop()` (convexhull.pyx 77-80), with the hull listed from
its end.  `hull[-2]` of a shorter list raises IndexError. -/
def popWhile (P : List Pt) (i : Nat) : List Nat → Except Err (List Nat)
  | b :: a :: st => if isleft (ptAt P a) (ptAt P b) (ptAt P i) then .ok (b :: a :: st) else popWhile P i (a :: st)
  | _ => .error .indexError

/-- `for i in indices[2:]` (convexhull.pyx 76-81). -/
def scan (P : List Pt) : List Nat → List Nat → Except Err (List Nat)
  | [], st => .ok st
  | i :: is, st =>
    match popWhile P i st with
    | .error e => .error e
    | .ok st' => scan P is (i :: st')

/-- `convexhull` (convexhull.pyx 18-82).  Without vertices the search for the leftmost one reads outside the
coordinates (reported as IndexError); with a single vertex `azimuth_indices[0]` raises IndexError. -/
def convexhull (ring : Bool) (ps : List Pt) : Except Err (List Nat) :=
  let P := readPts ring ps
  if P = [] then .error .indexError
  else
    match azimuthIndices P with
    | [] => .error .indexError
    | e :: es =>
      match dedup P (ptAt P (leftmost P)) (e :: es) es 1 0 (ptAt P (leftmost P)) [e.2] with
      | [] => .error .indexError
      | [i] => .ok [leftmost P, i]
      | [i, j] => .ok [leftmost P, i, j]
      | i :: j :: is =>
        match scan P is [j, i, leftmost P] with
        | .error x => .error x
        | .ok st => .ok st.reverse

end Karta.Vec.Hull
