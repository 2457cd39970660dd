import Verif.Vec.Transform
import Mathlib.Tactic.Ring
import Mathlib.Tactic.LinearCombination
import Mathlib.Tactic.NormNum

/-!
Properties C43 (affine transforms) and C63 (transforms keep holes).
-/

namespace Karta.Tr

variable {K : Type} [Field K] {P D : Type}

/-! ### Specification -/

/-- Spec: the affine map of the plane with matrix rows `(a, b, c)` and `(d, e, f)`. -/
def planar (a b c d e f : K) (v : K × K) : K × K := (a * v.1 + b * v.2 + c, d * v.1 + e * v.2 + f)

/-- Spec: the affine map of space given by three rows. -/
def spatial (r0 r1 r2 : Row K) (v : K × K × K) : K × K × K :=
  (r0.m0 * v.1 + r0.m1 * v.2.1 + r0.m2 * v.2.2 + r0.m3,
   r1.m0 * v.1 + r1.m1 * v.2.1 + r1.m2 * v.2.2 + r1.m3,
   r2.m0 * v.1 + r2.m1 * v.2.1 + r2.m2 * v.2.2 + r2.m3)

/-- Spec: row `r` times the square matrix obtained by adding the row `(0, 0, 0, 1)`. -/
def rowMul (r s0 s1 s2 : Row K) : Row K :=
  ⟨r.m0 * s0.m0 + r.m1 * s1.m0 + r.m2 * s2.m0, r.m0 * s0.m1 + r.m1 * s1.m1 + r.m2 * s2.m1,
   r.m0 * s0.m2 + r.m1 * s1.m2 + r.m2 * s2.m2, r.m0 * s0.m3 + r.m1 * s1.m3 + r.m2 * s2.m3 + r.m3⟩

/-- Spec: the product `N * M` of two affine matrices of the same shape. -/
def Mat.mul : Mat K → Mat K → Mat K
  | .m23 a b c d e f, .m23 a' b' c' d' e' f' =>
    .m23 (a * a' + b * d') (a * b' + b * e') (a * c' + b * f' + c)
      (d * a' + e * d') (d * b' + e * e') (d * c' + e * f' + f)
  | .m34 r0 r1 r2, .m34 s0 s1 s2 => .m34 (rowMul r0 s0 s1 s2) (rowMul r1 s0 s1 s2) (rowMul r2 s0 s1 s2)
  | _, _ => .other

/-! ### Theorems -/

/-- C43, planar matrix and planar geometry: every vertex is mapped, in order; properties and table
are kept. -/
theorem C43_acts_per_vertex (a b c d e f : K) (vs : List (K × K)) (hne : vs ≠ [])
    (props : P) (data : Option D) (subs : List (Verts K)) :
    ∃ g, applyTransform (.m23 a b c d e f) ⟨.two vs, props, data, subs⟩ = .ok g ∧
      g.verts = .two (vs.map (planar a b c d e f)) ∧ g.props = props ∧ g.data = data := by
  have h : vs.length ≠ 0 := by simpa using hne
  refine ⟨_, by rw [applyTransform, Verts.length, if_neg h]; rfl, ?_, rfl, rfl⟩
  simp only [transformVerts]
  congr 1
  apply List.map_congr_left
  intro v _
  simp [Row.dot, planar]

/-- C43, planar matrix on a geometry with a third coordinate: the third coordinate is kept. -/
theorem C43_planar_matrix_keeps_z (a b c d e f : K) (vs : List (K × K × K)) (hne : vs ≠ [])
    (props : P) (data : Option D) (subs : List (Verts K)) :
    ∃ g, applyTransform (.m23 a b c d e f) ⟨.three vs, props, data, subs⟩ = .ok g ∧
      g.verts = .three (vs.map fun v =>
        ((planar a b c d e f (v.1, v.2.1)).1, (planar a b c d e f (v.1, v.2.1)).2, v.2.2)) ∧
      g.props = props ∧ g.data = data := by
  have h : vs.length ≠ 0 := by simpa using hne
  refine ⟨_, by rw [applyTransform, Verts.length, if_neg h]; rfl, ?_, rfl, rfl⟩
  simp only [transformVerts]
  congr 1
  apply List.map_congr_left
  intro v _
  simp [Row.dot, planar]

/-- C43, spatial matrix on a geometry with a third coordinate. -/
theorem C43_spatial_acts_per_vertex (r0 r1 r2 : Row K) (vs : List (K × K × K)) (hne : vs ≠ [])
    (props : P) (data : Option D) (subs : List (Verts K)) :
    ∃ g, applyTransform (.m34 r0 r1 r2) ⟨.three vs, props, data, subs⟩ = .ok g ∧
      g.verts = .three (vs.map (spatial r0 r1 r2)) ∧ g.props = props ∧ g.data = data := by
  have h : vs.length ≠ 0 := by simpa using hne
  exact ⟨_, by rw [applyTransform, Verts.length, if_neg h]; rfl, rfl, rfl, rfl⟩

/-- C43: an empty geometry and a matrix of any other shape are refused. -/
theorem C43_refused (M : Mat K) (g : Geom K P D) (h : g.verts.length = 0 ∨ M = .other) :
    applyTransform M g = .error .valueError := by
  unfold applyTransform
  rcases h with h | rfl
  · rw [if_pos h]
  · simp [embed]

/-- C43: applying `M` and then `N` is applying the product `N * M`, for planar matrices on any
geometry and for spatial matrices on geometries with a third coordinate. -/
theorem C43_compose (M N : Mat K) (g h : Geom K P D)
    (hshape : (∃ a b c d e f a' b' c' d' e' f', M = .m23 a b c d e f ∧ N = .m23 a' b' c' d' e' f') ∨
      (∃ r0 r1 r2 s0 s1 s2 vs, M = .m34 r0 r1 r2 ∧ N = .m34 s0 s1 s2 ∧ g.verts = .three vs))
    (h1 : applyTransform M g = .ok h) :
    applyTransform N h = applyTransform (Mat.mul N M) g := by
  unfold applyTransform at h1 ⊢
  by_cases hl : g.verts.length = 0
  · rw [if_pos hl] at h1; cases h1
  rw [if_neg hl] at h1
  rcases hshape with ⟨a, b, c, d, e, f, a', b', c', d', e', f', rfl, rfl⟩ |
    ⟨r0, r1, r2, s0, s1, s2, vs, rfl, rfl, hv⟩
  · simp only [embed, Except.ok.injEq] at h1
    subst h1
    have hl' : ¬ (transformVerts ((⟨a, b, 0, c⟩ : Row K), ⟨d, e, 0, f⟩, ⟨0, 0, 1, 0⟩) g.verts).length = 0 := by
      cases hg : g.verts <;> simpa [hg, transformVerts, Verts.length] using hl
    rw [if_neg hl', if_neg hl]
    simp only [embed, Mat.mul]
    congr 2
    cases g.verts with
    | two vs =>
      simp only [transformVerts, List.map_map]
      congr 1
      apply List.map_congr_left
      intro v _
      simp only [Function.comp, Row.dot, Prod.mk.injEq]
      constructor <;> ring
    | three vs =>
      simp only [transformVerts, List.map_map]
      congr 1
      apply List.map_congr_left
      intro v _
      simp only [Function.comp, Row.dot, Prod.mk.injEq]
      refine ⟨?_, ?_, ?_⟩ <;> ring
  · simp only [embed, Except.ok.injEq] at h1
    subst h1
    have hl' : ¬ (transformVerts (r0, r1, r2) g.verts).length = 0 := by
      rw [hv] at hl ⊢; simpa [transformVerts, Verts.length] using hl
    rw [if_neg hl', if_neg hl]
    simp only [embed, Mat.mul]
    congr 2
    rw [hv]
    simp only [transformVerts, List.map_map]
    congr 1
    apply List.map_congr_left
    intro v _
    simp only [Function.comp, Row.dot, rowMul, Prod.mk.injEq]
    refine ⟨?_, ?_, ?_⟩ <;> ring

/-- The composition law fails for spatial matrices on geometries without a third coordinate: the
height produced by the first matrix is discarded. -/
theorem C43_violated_spatial_on_planar :
    ∃ (M N : Mat ℚ) (g h : Geom ℚ Unit Unit), applyTransform M g = .ok h ∧
      (applyTransform N h).map (·.verts) ≠ (applyTransform (Mat.mul N M) g).map (·.verts) := by
  refine ⟨.m34 ⟨1, 0, 0, 0⟩ ⟨0, 1, 0, 0⟩ ⟨0, 0, 1, 1⟩, .m34 ⟨1, 0, 1, 0⟩ ⟨0, 1, 0, 0⟩ ⟨0, 0, 1, 0⟩,
    ⟨.two [(0, 0)], (), none, []⟩, _, rfl, ?_⟩
  intro h
  have h2 := congrArg (fun r : Except Err (Verts ℚ) => r.toOption) h
  revert h2
  decide +kernel

/-- Spec: every vertex moved by `(dx, dy)`, a third coordinate kept. -/
def movedBy (dx dy : K) : Verts K → Verts K
  | .two vs => .two (vs.map fun v => (v.1 + dx, v.2 + dy))
  | .three vs => .three (vs.map fun v => (v.1 + dx, v.2.1 + dy, v.2.2))

theorem shift_eq (dx dy : K) (g : Geom K P D) (hne : g.verts.length ≠ 0) :
    ∃ h, shift [dx, dy] g = .ok h ∧ h.verts = movedBy dx dy g.verts ∧ h.props = g.props ∧
      h.data = g.data := by
  obtain ⟨vs, props, data, subs⟩ := g
  cases vs with
  | two vs =>
    have hl : vs ≠ [] := by rintro rfl; exact hne rfl
    obtain ⟨h, h1, h2, h3, h4⟩ := C43_acts_per_vertex 1 0 dx 0 1 dy vs hl props data subs
    refine ⟨h, h1, ?_, h3, h4⟩
    rw [h2, movedBy]
    congr 1
    apply List.map_congr_left
    intro v _
    simp [planar]
  | three vs =>
    have hl : vs ≠ [] := by rintro rfl; exact hne rfl
    obtain ⟨h, h1, h2, h3, h4⟩ := C43_planar_matrix_keeps_z 1 0 dx 0 1 dy vs hl props data subs
    refine ⟨h, h1, ?_, h3, h4⟩
    rw [h2, movedBy]
    congr 1
    apply List.map_congr_left
    intro v _
    simp [planar]

/-- C43: a shift moves every vertex by the vector and keeps the third coordinate; shifting back
restores the vertices. -/
theorem C43_shift (dx dy : K) (g : Geom K P D) (hne : g.verts.length ≠ 0) :
    ∃ h k, shift [dx, dy] g = .ok h ∧ shift [-dx, -dy] h = .ok k ∧
      h.verts = movedBy dx dy g.verts ∧
      k.verts = g.verts ∧ k.props = g.props ∧ k.data = g.data := by
  obtain ⟨h, h1, h2, h3, h4⟩ := shift_eq dx dy g hne
  have hne' : h.verts.length ≠ 0 := by
    rw [h2]; cases hg : g.verts <;> simpa [hg, movedBy, Verts.length] using hne
  obtain ⟨k, k1, k2, k3, k4⟩ := shift_eq (-dx) (-dy) h hne'
  refine ⟨h, k, h1, k1, h2, ?_, k3.trans h3, k4.trans h4⟩
  rw [k2, h2]
  cases g.verts with
  | two vs => simp [movedBy, Function.comp_def]
  | three vs => simp [movedBy, Function.comp_def]

/-- C43: a shift vector of any other length is refused. -/
theorem C43_shift_refused (v : List K) (h : v.length ≠ 2) (g : Geom K P D) :
    shift v g = .error .valueError := by
  rcases v with _ | ⟨a, _ | ⟨b, _ | ⟨c, l⟩⟩⟩ <;> first | rfl | simp at h

/-- Spec: rotation of the plane by `θ` degrees counter-clockwise about `o`. -/
noncomputable def rotPoint (θ : ℝ) (o v : ℝ × ℝ) : ℝ × ℝ :=
  (o.1 + Real.cos (θ * Real.pi / 180) * (v.1 - o.1) - Real.sin (θ * Real.pi / 180) * (v.2 - o.2),
   o.2 + Real.sin (θ * Real.pi / 180) * (v.1 - o.1) + Real.cos (θ * Real.pi / 180) * (v.2 - o.2))

/-- C43: `rotate` rotates every vertex about the origin argument. -/
theorem C43_rotate_acts (θ : ℝ) (o : ℝ × ℝ) (vs : List (ℝ × ℝ)) (hne : vs ≠ [])
    (props : P) (data : Option D) (subs : List (Verts ℝ)) :
    ∃ g, rotate θ o ⟨.two vs, props, data, subs⟩ = .ok g ∧
      g.verts = .two (vs.map (rotPoint θ o)) ∧ g.props = props ∧ g.data = data := by
  obtain ⟨g, h1, h2, h3, h4⟩ := C43_acts_per_vertex (P := P) (D := D)
    (Real.cos (θ * Real.pi / 180)) (-Real.sin (θ * Real.pi / 180))
    (-o.1 * Real.cos (θ * Real.pi / 180) + o.2 * Real.sin (θ * Real.pi / 180) + o.1)
    (Real.sin (θ * Real.pi / 180)) (Real.cos (θ * Real.pi / 180))
    (-o.1 * Real.sin (θ * Real.pi / 180) - o.2 * Real.cos (θ * Real.pi / 180) + o.2)
    vs hne props data subs
  refine ⟨g, h1, ?_, h3, h4⟩
  rw [h2]
  congr 1
  apply List.map_congr_left
  intro v _
  simp only [planar, rotPoint, Prod.mk.injEq]
  constructor <;> ring

/-- C43: a rotation fixes its origin, preserves all distances, rotations about one origin add their
angles, and a rotation by zero degrees changes nothing. -/
theorem C43_rotation_rigid (θ φ : ℝ) (o v w : ℝ × ℝ) :
    rotPoint θ o o = o ∧
    ((rotPoint θ o v).1 - (rotPoint θ o w).1) ^ 2 + ((rotPoint θ o v).2 - (rotPoint θ o w).2) ^ 2
      = (v.1 - w.1) ^ 2 + (v.2 - w.2) ^ 2 ∧
    rotPoint φ o (rotPoint θ o v) = rotPoint (θ + φ) o v ∧
    rotPoint 0 o v = v := by
  have hc := Real.sin_sq_add_cos_sq (θ * Real.pi / 180)
  refine ⟨?_, ?_, ?_, ?_⟩
  · simp [rotPoint]
  · simp only [rotPoint]
    linear_combination ((v.1 - w.1) ^ 2 + (v.2 - w.2) ^ 2) * hc
  · have e : (θ + φ) * Real.pi / 180 = θ * Real.pi / 180 + φ * Real.pi / 180 := by ring
    simp only [rotPoint, e, Real.cos_add, Real.sin_add, Prod.mk.injEq]
    constructor <;> ring
  · simp [rotPoint]

/-- C43: transforming a `Point` gives the same coordinates as transforming a one-vertex geometry. -/
theorem C43_point_agrees (M : Mat K) (x y z : K) :
    ((pointTransform M (.two x y)).map fun p => match p with
      | .two x y => Verts.two [(x, y)] | .three x y z => .three [(x, y, z)]) =
      (applyTransform M (⟨.two [(x, y)], (), none, []⟩ : Geom K Unit Unit)).map (·.verts) ∧
    ((pointTransform M (.three x y z)).map fun p => match p with
      | .two x y => Verts.two [(x, y)] | .three x y z => .three [(x, y, z)]) =
      (applyTransform M (⟨.three [(x, y, z)], (), none, []⟩ : Geom K Unit Unit)).map (·.verts) := by
  unfold pointTransform applyTransform
  cases hM : embed M with
  | error e => simp [Verts.length, Except.map]
  | ok N =>
    simp only [Verts.length, Except.map, transformVerts, Row.dot]
    constructor
    · simp; constructor <;> ring
    · simp; refine ⟨?_, ?_, ?_⟩ <;> ring

/-- The vertex list of a point. -/
def Vertex.verts : Vertex K → Verts K
  | .two x y => .two [(x, y)]
  | .three x y z => .three [(x, y, z)]

/-- C43: shifting a point moves it by the vector and keeps a third coordinate, as for other geometries; a
vector of another length is refused. -/
theorem C43_point_shift (p : Vertex K) :
    (∀ dx dy, ∃ q, pointShift [dx, dy] p = .ok q ∧ q.verts = movedBy dx dy p.verts) ∧
    ∀ v, v.length ≠ 2 → pointShift v p = .error .valueError := by
  constructor
  · intro dx dy
    cases p with
    | two x y => exact ⟨_, rfl, rfl⟩
    | three x y z => exact ⟨_, rfl, rfl⟩
  · intro v h
    rcases v with _ | ⟨a, _ | ⟨b, _ | ⟨c, l⟩⟩⟩ <;> first | rfl | simp at h

/-- C43: a multipart geometry is transformed member by member. -/
theorem C43_multipart (M : Mat K) (N : Row K × Row K × Row K) (hM : embed M = .ok N)
    (parts : List (Verts K)) (hne : ∀ p ∈ parts, p.length ≠ 0) :
    multipartTransform M parts = .ok (parts.map (transformVerts N)) := by
  unfold multipartTransform
  rw [hM]
  simp only
  induction parts with
  | nil => rfl
  | cons p ps ih =>
    have hp : p.length ≠ 0 := hne p (by simp)
    rw [List.mapM_cons, ih (fun q hq => hne q (by simp [hq]))]
    rw [applyTransform, if_neg hp]
    rfl

example : (applyTransform (.m23 0 (-1) 5 1 0 0) (⟨.two [(1, 0), (2, 3)], 7, some 9, []⟩ : Geom ℚ Nat Nat)).toOption.map
    (fun g => (g.verts, g.props, g.data)) = some (.two [(5, 1), (2, 2)], 7, some 9) := by decide +kernel

/-! ### Holes -/

/-- C63 is violated: shifting a polygon with a hole returns a polygon without holes. -/
theorem C63_violated_shift_drops_holes :
    ∃ (g h : Geom ℚ Unit Unit), g.subs ≠ [] ∧ shift [1, 1] g = .ok h ∧ h.subs = [] := by
  refine ⟨⟨.two [(0, 0), (9, 0), (9, 9)], (), none, [.two [(4, 1), (5, 1), (5, 2)]]⟩, _, ?_, rfl, rfl⟩
  simp

/-- C63, what holds: polygons without holes stay without holes, so for them nothing is lost.
Missing for the full C63: polygons with holes. -/
theorem C63_no_holes_partial (M : Mat K) (g h : Geom K P D) (hs : g.subs = [])
    (hh : applyTransform M g = .ok h) : h.subs = g.subs := by
  unfold applyTransform at hh
  by_cases hl : g.verts.length = 0
  · rw [if_pos hl] at hh; cases hh
  · rw [if_neg hl] at hh
    cases hM : embed M with
    | error e => rw [hM] at hh; cases hh
    | ok N =>
      rw [hM] at hh
      simp only [Except.ok.injEq] at hh
      subst hh; rw [hs]

end Karta.Tr
