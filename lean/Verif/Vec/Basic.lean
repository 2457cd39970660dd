import Mathlib.Data.Rat.Defs
import Mathlib.Algebra.Order.Ring.Rat
import Mathlib.Algebra.Order.Field.Rat
import Verif.Py

/-!
Planar points and boxes over exact rational arithmetic (the code uses C doubles; rounding is
not modelled).
-/

namespace Karta.Vec

/-- A pair of coordinates. -/
structure P2 (K : Type) where
  x : K
  y : K
  deriving DecidableEq

/-- A planar vertex. -/
abbrev Pt := P2 ℚ

/-- A bounding box `(xmin, ymin, xmax, ymax)`. -/
structure Box where
  xmin : ℚ
  ymin : ℚ
  xmax : ℚ
  ymax : ℚ
  deriving DecidableEq

/-- Spec: the point lies in the closed box. -/
def Box.Contains (b : Box) (p : Pt) : Prop :=
  b.xmin ≤ p.x ∧ p.x ≤ b.xmax ∧ b.ymin ≤ p.y ∧ p.y ≤ b.ymax

/-- Spec: the point lies strictly inside the box. -/
def Box.Inside (b : Box) (p : Pt) : Prop :=
  b.xmin < p.x ∧ p.x < b.xmax ∧ b.ymin < p.y ∧ p.y < b.ymax

instance (b : Box) (p : Pt) : Decidable (b.Contains p) := by unfold Box.Contains; infer_instance
instance (b : Box) (p : Pt) : Decidable (b.Inside p) := by unfold Box.Inside; infer_instance

/-- Loop body of `bbox` (vectorgeo.pyx 118-127). -/
def bboxStep (b : Box) (p : Pt) : Box :=
  ⟨min b.xmin p.x, min b.ymin p.y, max b.xmax p.x, max b.ymax p.y⟩

/-- `bbox` of a coordinate string (vectorgeo.pyx 108-129); `none` stands for the four NaNs
returned for an empty one.  Also used for `CoordString.bbox()`, which lives in a separate
package and is assumed to compute the same box. -/
def bbox : List Pt → Option Box
  | [] => none
  | p :: ps => some (ps.foldl bboxStep ⟨p.x, p.y, p.x, p.y⟩)

end Karta.Vec
