import Verif.Vec.Fit
import Mathlib.Tactic.Linarith
import Mathlib.Tactic.LinearCombination
import Mathlib.Algebra.Order.Ring.Rat
import Mathlib.Algebra.Order.Field.Rat

/-!
Property C102: `affine_matrix` returns the affine transformation that fits best.
-/

namespace Karta.Fit
open Karta Karta.Tr

/-! ### Specification -/

/-- Scalar product of two rows. -/
def dot : List ℚ → List ℚ → ℚ
  | x :: xs, y :: ys => x * y + dot xs ys
  | _, _ => 0

/-- `|A m - p|²`. -/
def squares : List (List ℚ) → List ℚ → List ℚ → ℚ
  | r :: A, m, p :: ps => (dot r m - p) ^ 2 + squares A m ps
  | _, _, _ => 0

/-- What is assumed of `numpy.linalg.lstsq` on six columns: a result has six entries and no other six entries do better. -/
def Sound (lstsq : List (List ℚ) → List ℚ → Except Err (List ℚ)) : Prop :=
  ∀ A p m, lstsq A p = .ok m → m.length = 6 ∧ ∀ m', m'.length = 6 → squares A m p ≤ squares A m' p

/-- The image of a point under the transformation `(a b c; d e f)`. -/
def image (a b c d e f : ℚ) (v : ℚ × ℚ) : ℚ × ℚ := (a * v.1 + b * v.2 + c, d * v.1 + e * v.2 + f)

/-- Sum of the squared distances between the images of the first points and the second points. -/
def misfit (a b c d e f : ℚ) : List (ℚ × ℚ) → List (ℚ × ℚ) → ℚ
  | v :: vs, w :: ws => ((image a b c d e f v).1 - w.1) ^ 2 + ((image a b c d e f v).2 - w.2) ^ 2 + misfit a b c d e f vs ws
  | _, _ => 0

/-- Three of the points are not on one line. -/
def Spread (vs : List (ℚ × ℚ)) : Prop :=
  ∃ p ∈ vs, ∃ q ∈ vs, ∃ r ∈ vs, (q.1 - p.1) * (r.2 - p.2) - (q.2 - p.2) * (r.1 - p.1) ≠ 0

/-! ### Helpers -/

theorem squares_design (a b c d e f : ℚ) (vs ws : List (ℚ × ℚ)) :
    squares (design vs) [a, b, c, d, e, f] (ravel (.two ws)) = misfit a b c d e f vs ws := by
  induction vs generalizing ws with
  | nil => simp [design, squares, misfit]
  | cons v vs ih =>
    obtain ⟨x, y⟩ := v
    cases ws with
    | nil => simp [design, squares, misfit, ravel]
    | cons w ws =>
      have ih := ih ws
      simp only [ravel] at ih
      simp only [design, ravel, List.flatMap_cons, List.cons_append, List.nil_append, squares, misfit, dot, image, ih]
      ring

theorem ravel_length (ws : List (ℚ × ℚ)) : (ravel (.two ws)).length = 2 * ws.length := by
  induction ws with
  | nil => rfl
  | cons w ws ih =>
    simp only [ravel] at ih
    simp only [ravel, List.flatMap_cons, List.length_append, List.length_cons, List.length_nil, ih]
    omega

theorem design_length (vs : List (ℚ × ℚ)) : (design vs).length = 2 * vs.length := by
  induction vs with
  | nil => rfl
  | cons v vs ih =>
    obtain ⟨x, y⟩ := v
    simp only [design, List.length_cons, ih]
    omega

theorem fit_ok {lstsq : List (List ℚ) → List ℚ → Except Err (List ℚ)} {vs ws : List (ℚ × ℚ)} {M : Mat ℚ}
    (h : affineMatrix lstsq (.two vs) (.two ws) = .ok M) :
    vs.length = ws.length ∧ ∃ a b c d e f, M = .m23 a b c d e f ∧ lstsq (design vs) (ravel (.two ws)) = .ok [a, b, c, d, e, f] := by
  unfold affineMatrix at h
  by_cases hl : (Verts.two vs).length = (Verts.two ws).length
  · rw [if_neg (by simpa using hl)] at h
    simp only [matrixOf] at h
    rw [if_neg (by rw [design_length, ravel_length]; simp only [Verts.length] at hl; omega)] at h
    cases hm : lstsq (design vs) (ravel (.two ws)) with
    | error e => rw [hm] at h; simp at h
    | ok m =>
      rw [hm] at h
      simp only at h
      unfold reshape at h
      split at h
      · cases h
        exact ⟨hl, _, _, _, _, _, _, rfl, rfl⟩
      · simp at h
  · rw [if_pos hl] at h
    simp at h

/-- The parallelogram law for the misfit. -/
theorem misfit_mid (a b c d e f a' b' c' d' e' f' : ℚ) (vs ws : List (ℚ × ℚ)) (hl : vs.length = ws.length) :
    2 * (misfit a b c d e f vs ws + misfit a' b' c' d' e' f' vs ws) =
      4 * misfit ((a + a') / 2) ((b + b') / 2) ((c + c') / 2) ((d + d') / 2) ((e + e') / 2) ((f + f') / 2) vs ws +
      misfit (a - a') (b - b') (c - c') (d - d') (e - e') (f - f') vs (vs.map fun _ => (0, 0)) := by
  induction vs generalizing ws with
  | nil => simp [misfit]
  | cons v vs ih =>
    cases ws with
    | nil => simp at hl
    | cons w ws =>
      have ih := ih ws (by simpa using hl)
      simp only [misfit, image, List.map_cons]
      linear_combination ih

theorem misfit_nonneg (a b c d e f : ℚ) (vs ws : List (ℚ × ℚ)) : 0 ≤ misfit a b c d e f vs ws := by
  induction vs generalizing ws with
  | nil => simp [misfit]
  | cons v vs ih =>
    cases ws with
    | nil => simp [misfit]
    | cons w ws =>
      simp only [misfit]
      have := ih ws
      positivity

theorem misfit_zero {a b c d e f : ℚ} {vs : List (ℚ × ℚ)} (h : misfit a b c d e f vs (vs.map fun _ => (0, 0)) ≤ 0) :
    ∀ v ∈ vs, image a b c d e f v = (0, 0) := by
  induction vs with
  | nil => simp
  | cons v vs ih =>
    simp only [misfit, List.map_cons, sub_zero] at h
    have h0 := misfit_nonneg a b c d e f vs (vs.map fun _ => (0, 0))
    have h1 := sq_nonneg (image a b c d e f v).1
    have h2 := sq_nonneg (image a b c d e f v).2
    intro u hu
    rcases List.mem_cons.1 hu with rfl | hu
    · have e1 : (image a b c d e f u).1 ^ 2 = 0 := by linarith
      have e2 : (image a b c d e f u).2 ^ 2 = 0 := by linarith
      exact Prod.ext (pow_eq_zero_iff (two_ne_zero) |>.1 e1) (pow_eq_zero_iff (two_ne_zero) |>.1 e2)
    · exact ih (by linarith) u hu

theorem three_zero {a b c : ℚ} {p q r : ℚ × ℚ} (hd : (q.1 - p.1) * (r.2 - p.2) - (q.2 - p.2) * (r.1 - p.1) ≠ 0)
    (hp : a * p.1 + b * p.2 + c = 0) (hq : a * q.1 + b * q.2 + c = 0) (hr : a * r.1 + b * r.2 + c = 0) : a = 0 ∧ b = 0 ∧ c = 0 := by
  have ha : a = 0 := by
    have : ((q.1 - p.1) * (r.2 - p.2) - (q.2 - p.2) * (r.1 - p.1)) * a = 0 := by
      linear_combination (r.2 - p.2) * (hq - hp) - (q.2 - p.2) * (hr - hp)
    exact (mul_eq_zero.1 this).resolve_left hd
  have hb : b = 0 := by
    have : ((q.1 - p.1) * (r.2 - p.2) - (q.2 - p.2) * (r.1 - p.1)) * b = 0 := by
      linear_combination (q.1 - p.1) * (hr - hp) - (r.1 - p.1) * (hq - hp)
    exact (mul_eq_zero.1 this).resolve_left hd
  refine ⟨ha, hb, ?_⟩
  rw [ha, hb] at hp
  linarith

/-! ### C102 -/

/-- C102: what `affine_matrix` returns is a 2 x 3 matrix, the point sets have the same size, and no other affine transformation brings the
first points closer to the second, in the sum of squared distances. -/
theorem C102_best {lstsq : List (List ℚ) → List ℚ → Except Err (List ℚ)} (hs : Sound lstsq) {vs ws : List (ℚ × ℚ)} {M : Mat ℚ}
    (h : affineMatrix lstsq (.two vs) (.two ws) = .ok M) :
    vs.length = ws.length ∧ ∃ a b c d e f, M = .m23 a b c d e f ∧
      ∀ a' b' c' d' e' f', misfit a b c d e f vs ws ≤ misfit a' b' c' d' e' f' vs ws := by
  obtain ⟨hl, a, b, c, d, e, f, hM, hm⟩ := fit_ok h
  refine ⟨hl, a, b, c, d, e, f, hM, fun a' b' c' d' e' f' => ?_⟩
  have := (hs _ _ _ hm).2 [a', b', c', d', e', f'] rfl
  rwa [squares_design, squares_design] at this

/-- C102, uniqueness: if three points are not on one line, the answer does not depend on the solver. -/
theorem C102_unique {l1 l2 : List (List ℚ) → List ℚ → Except Err (List ℚ)} (h1 : Sound l1) (h2 : Sound l2) {vs ws : List (ℚ × ℚ)}
    (hsp : Spread vs) {M N : Mat ℚ} (hM : affineMatrix l1 (.two vs) (.two ws) = .ok M) (hN : affineMatrix l2 (.two vs) (.two ws) = .ok N) :
    M = N := by
  obtain ⟨hl, a, b, c, d, e, f, rfl, hb⟩ := C102_best h1 hM
  obtain ⟨-, a', b', c', d', e', f', rfl, hb'⟩ := C102_best h2 hN
  have hp := misfit_mid a b c d e f a' b' c' d' e' f' vs ws hl
  have g1 := hb ((a + a') / 2) ((b + b') / 2) ((c + c') / 2) ((d + d') / 2) ((e + e') / 2) ((f + f') / 2)
  have g2 := hb' ((a + a') / 2) ((b + b') / 2) ((c + c') / 2) ((d + d') / 2) ((e + e') / 2) ((f + f') / 2)
  have hz := misfit_zero (a := a - a') (b := b - b') (c := c - c') (d := d - d') (e := e - e') (f := f - f') (vs := vs) (by linarith)
  obtain ⟨p, hp, q, hq, r, hr, hd⟩ := hsp
  have zp := hz p hp
  have zq := hz q hq
  have zr := hz r hr
  simp only [image, Prod.mk.injEq] at zp zq zr
  obtain ⟨k1, k2, k3⟩ := three_zero hd zp.1 zq.1 zr.1
  obtain ⟨k4, k5, k6⟩ := three_zero hd zp.2 zq.2 zr.2
  rw [sub_eq_zero] at k1 k2 k3 k4 k5 k6
  subst k1 k2 k3 k4 k5 k6
  rfl

/-- C102, recovery: if the second points are the images of the first under an affine transformation, and three of the first are not on one
line, that transformation is returned. -/
theorem C102_recovers {lstsq : List (List ℚ) → List ℚ → Except Err (List ℚ)} (hs : Sound lstsq) {vs : List (ℚ × ℚ)} (hsp : Spread vs)
    (a b c d e f : ℚ) {M : Mat ℚ} (h : affineMatrix lstsq (.two vs) (.two (vs.map (image a b c d e f))) = .ok M) : M = .m23 a b c d e f := by
  have hz : ∀ us : List (ℚ × ℚ), misfit a b c d e f us (us.map (image a b c d e f)) = 0 := by
    intro us
    induction us with
    | nil => simp [misfit]
    | cons u us ih => simp [misfit, ih]
  let l2 : List (List ℚ) → List ℚ → Except Err (List ℚ) := fun A p =>
    if A = design vs ∧ p = ravel (.two (vs.map (image a b c d e f))) then .ok [a, b, c, d, e, f] else .error .other
  have h2 : Sound l2 := by
    intro A p m hm
    by_cases hc : A = design vs ∧ p = ravel (.two (vs.map (image a b c d e f)))
    · simp only [l2, if_pos hc, Except.ok.injEq] at hm
      subst hm
      obtain ⟨rfl, rfl⟩ := hc
      refine ⟨rfl, fun m' hm' => ?_⟩
      match m', hm' with
      | [a', b', c', d', e', f'], _ =>
        rw [squares_design, squares_design, hz]
        exact misfit_nonneg _ _ _ _ _ _ _ _
    · simp only [l2, if_neg hc] at hm
      simp at hm
  refine C102_unique hs h2 hsp h ?_
  unfold affineMatrix
  rw [if_neg (by simp [Verts.length])]
  simp only [matrixOf]
  rw [if_neg (by rw [design_length, ravel_length, List.length_map]; simp)]
  simp [l2, reshape]

/-- C102: point sets of different sizes are refused, and so are first points with three coordinates. -/
theorem C102_refuses (lstsq : List (List ℚ) → List ℚ → Except Err (List ℚ)) :
    (∀ mpa mpb : Verts ℚ, mpa.length ≠ mpb.length → affineMatrix lstsq mpa mpb = .error .other) ∧
    ∀ (vs : List (ℚ × ℚ × ℚ)) (mpb : Verts ℚ), vs ≠ [] → ∃ err, affineMatrix lstsq (.three vs) mpb = .error err := by
  refine ⟨fun mpa mpb h => by rw [affineMatrix, if_pos h], fun vs mpb hne => ?_⟩
  unfold affineMatrix
  by_cases hl : (Verts.three vs).length ≠ mpb.length
  · exact ⟨_, by rw [if_pos hl]⟩
  · rw [if_neg hl]
    cases vs with
    | nil => exact absurd rfl hne
    | cons v vs => exact ⟨_, rfl⟩

/-- C102 with `apply_transform` (C43): the returned matrix moves the first points exactly onto the second. -/
theorem C102_apply {P D : Type} {lstsq : List (List ℚ) → List ℚ → Except Err (List ℚ)} (hs : Sound lstsq) {vs : List (ℚ × ℚ)} (hsp : Spread vs)
    (a b c d e f : ℚ) {M : Mat ℚ} (h : affineMatrix lstsq (.two vs) (.two (vs.map (image a b c d e f))) = .ok M) (props : P) (data : Option D) :
    ∃ g, applyTransform M (⟨.two vs, props, data, []⟩ : Geom ℚ P D) = .ok g ∧ g.verts = .two (vs.map (image a b c d e f)) := by
  obtain rfl := C102_recovers hs hsp a b c d e f h
  unfold applyTransform
  have hne : vs ≠ [] := by
    obtain ⟨p, hp, -⟩ := hsp
    exact List.ne_nil_of_mem hp
  rw [if_neg (by simpa [Verts.length] using hne)]
  refine ⟨_, rfl, ?_⟩
  simp [transformVerts, Row.dot, image]

/-- A solver that knows one system, three points and a shear with a shift: the hypotheses of the theorems hold. -/
example : ∃ lstsq, Sound lstsq ∧ Spread [(0, 0), (2, 0), (0, 3)] ∧
    affineMatrix lstsq (.two [(0, 0), (2, 0), (0, 3)]) (.two ([(0, 0), (2, 0), (0, 3)].map (image 1 2 5 0 1 (-1)))) = .ok (.m23 1 2 5 0 1 (-1)) := by
  refine ⟨fun A p => if A = design [(0, 0), (2, 0), (0, 3)] ∧ p = ravel (.two ([(0, 0), (2, 0), (0, 3)].map (image 1 2 5 0 1 (-1))))
      then .ok [1, 2, 5, 0, 1, -1] else .error .other, ?_, ⟨(0, 0), by simp, (2, 0), by simp, (0, 3), by simp, by norm_num⟩, by decide +kernel⟩
  intro A p m hm
  beta_reduce at hm
  by_cases hc : A = design [(0, 0), (2, 0), (0, 3)] ∧ p = ravel (.two ([(0, 0), (2, 0), (0, 3)].map (image 1 2 5 0 1 (-1))))
  · rw [if_pos hc] at hm
    simp only [Except.ok.injEq] at hm
    subst hm
    obtain ⟨rfl, rfl⟩ := hc
    refine ⟨rfl, fun m' hm' => ?_⟩
    match m', hm' with
    | [a', b', c', d', e', f'], _ =>
      rw [squares_design, squares_design]
      have : misfit 1 2 5 0 1 (-1) [(0, 0), (2, 0), (0, 3)] ([(0, 0), (2, 0), (0, 3)].map (image 1 2 5 0 1 (-1))) = 0 := by decide +kernel
      rw [this]
      exact misfit_nonneg _ _ _ _ _ _ _ _
  · rw [if_neg hc] at hm
    simp at hm

end Karta.Fit
