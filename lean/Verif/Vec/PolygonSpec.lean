import Verif.Vec.Polygon

/-!
Specification used by the polygon theorems: signed area by the shoelace formula, affine maps, and
half-planes.  Nothing here is used by the model.
-/

namespace Karta.Vec

/-- Sum of `f` over consecutive pairs of an open path. -/
def pathSum {M : Type} [Add M] [Zero M] (f : Pt → Pt → M) : List Pt → M
  | a :: b :: l => f a b + pathSum f (b :: l)
  | _ => 0

/-- Sum of `f` over the edges of the closed polygon with the given vertices. -/
def ringSum {M : Type} [Add M] [Zero M] (f : Pt → Pt → M) : List Pt → M
  | [] => 0
  | p :: ps => pathSum f (p :: ps ++ [p])

/-- Twice the signed area of the triangle (origin, a, b). -/
def cross (a b : Pt) : ℚ := a.x * b.y - b.x * a.y

/-- Signed area (counter-clockwise positive) by the shoelace formula. -/
def signedArea (ps : List Pt) : ℚ := ringSum cross ps / 2

/-- The edges `(a, b)` of the closed polygon with the given vertices. -/
def IsEdge (ps : List Pt) (a b : Pt) : Prop :=
  (∃ i, ps[i]? = some a ∧ ps[i + 1]? = some b) ∨ (ps.getLast? = some a ∧ ps.head? = some b)

/-- An affine map of the plane. -/
structure Affine where
  a : ℚ
  b : ℚ
  c : ℚ
  d : ℚ
  e : ℚ
  f : ℚ

/-- `(a x + b y + c, d x + e y + f)`. -/
def Affine.apply (m : Affine) (p : Pt) : Pt := ⟨m.a * p.x + m.b * p.y + m.c, m.d * p.x + m.e * p.y + m.f⟩

/-- Determinant of the linear part. -/
def Affine.det (m : Affine) : ℚ := m.a * m.e - m.b * m.d

/-- Translation. -/
def Pt.shift (v p : Pt) : Pt := ⟨p.x + v.x, p.y + v.y⟩

mutual
/-- A polygon with every vertex (also of the holes) mapped. -/
def Poly.map (g : Pt → Pt) : Poly → Poly
  | .mk ring subs => .mk (ring.map g) (Poly.mapAll g subs)
/-- Map every polygon of a list. -/
def Poly.mapAll (g : Pt → Pt) : List Poly → List Poly
  | [] => []
  | p :: ps => p.map g :: Poly.mapAll g ps
end

/-- Twice the signed area of the triangle `(a, b, p)`: positive iff `p` is strictly to the left of
the directed line from `a` to `b`. -/
def leftOf (a b p : Pt) : ℚ := (b.x - a.x) * (p.y - a.y) - (b.y - a.y) * (p.x - a.x)

end Karta.Vec
