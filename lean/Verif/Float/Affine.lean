import Verif.Float.Area
import Verif.Float.Units

/-!
Model of `apply_transform` and `shift` of planar geometries (`/repo/karta/vector/geometry.py` 483-553) with rounded arithmetic, and property C172.
-/

namespace Karta.FloatAffine
open Karta Karta.Vec Karta.Float

variable (R : Rounding)

/-- A row of a 2x3 matrix. -/
structure Row where
  a : ℚ
  b : ℚ
  c : ℚ
  deriving DecidableEq

/-- One entry of `np.dot(M, xy.T)` for a column `(x, y, 0, 1)` (geometry.py 513-531), the third entry of the embedded row being 0.  Simplification:
products and sums are rounded one by one, from left to right, without fused multiply-add. -/
def dotF (r : Row) (p : Pt) : ℚ :=
  R.fl (R.fl (R.fl (R.fl (r.a * p.x) + R.fl (r.b * p.y)) + R.fl (0 * 0)) + R.fl (r.c * 1))

/-- `apply_transform` (geometry.py 483-539) of the vertices of a planar geometry with a 2x3 matrix. -/
def transformF (r s : Row) (vs : List Pt) : Except Err (List Pt) :=
  if vs.length = 0 then .error .valueError else .ok (vs.map fun p => ⟨dotF R r p, dotF R s p⟩)

/-- `shift` (geometry.py 541-553). -/
def shiftF (v : List ℚ) (vs : List Pt) : Except Err (List Pt) :=
  match v with
  | [dx, dy] => transformF R ⟨1, 0, dx⟩ ⟨0, 1, dy⟩ vs
  | _ => .error .valueError

/-! ### Specification -/

/-- A vertex whose coordinates are floating-point numbers. -/
def Rep (p : Pt) : Prop := R.fl p.x = p.x ∧ R.fl p.y = p.y

/-! ### Lemmas -/

variable {R}

theorem dotF_x {a c x : ℚ} (y : ℚ) : dotF R ⟨a, 0, c⟩ ⟨x, y⟩ = R.fl (R.fl (a * x) + R.fl c) := by
  unfold dotF
  simp only [zero_mul, R.zero, add_zero, mul_one, R.idem]

theorem dotF_y {b c y : ℚ} (x : ℚ) : dotF R ⟨0, b, c⟩ ⟨x, y⟩ = R.fl (R.fl (b * y) + R.fl c) := by
  unfold dotF
  simp only [zero_mul, R.zero, zero_add, add_zero, mul_one, R.idem]

theorem foldl_bbox {f g : ℚ → ℚ} (hf : Monotone f) (hg : Monotone g) : ∀ (ps : List Pt) (b : Box),
    (ps.map fun p => (⟨f p.x, g p.y⟩ : Pt)).foldl bboxStep ⟨f b.xmin, g b.ymin, f b.xmax, g b.ymax⟩ =
      ⟨f (ps.foldl bboxStep b).xmin, g (ps.foldl bboxStep b).ymin, f (ps.foldl bboxStep b).xmax, g (ps.foldl bboxStep b).ymax⟩
  | [], _ => rfl
  | p :: ps, b => by
    rw [List.map_cons, List.foldl_cons, List.foldl_cons, ← foldl_bbox hf hg ps (bboxStep b p)]
    congr 1
    simp only [bboxStep, hf.map_min, hg.map_min, hf.map_max, hg.map_max]

theorem bbox_map {f g : ℚ → ℚ} (hf : Monotone f) (hg : Monotone g) (ps : List Pt) :
    bbox (ps.map fun p => (⟨f p.x, g p.y⟩ : Pt)) = (bbox ps).map fun b => ⟨f b.xmin, g b.ymin, f b.xmax, g b.ymax⟩ := by
  cases ps with
  | nil => rfl
  | cons p ps => exact congrArg some (foldl_bbox hf hg ps ⟨p.x, p.y, p.x, p.y⟩)

theorem mono_step {a c : ℚ} (ha : 0 ≤ a) : Monotone fun x => R.fl (R.fl (a * x) + R.fl c) := fun x y h =>
  R.mono (by linarith [R.mono (mul_le_mul_of_nonneg_left h ha)])

/-! ### C172 -/

/-- C172.  Each coordinate of a transformed vertex has an error of at most five units of rounding of the sum of the magnitudes of its terms. -/
theorem C172_error (r s : Row) (vs : List Pt) (h : vs ≠ []) (hr : R.fl r.c = r.c) (hs : R.fl s.c = s.c) :
    ∃ ws, transformF R r s vs = .ok ws ∧ ws.length = vs.length ∧ ∀ (k : Nat) p q, vs[k]? = some p → ws[k]? = some q →
      |q.x - (r.a * p.x + r.b * p.y + r.c)| ≤ 5 / 2 ^ 53 * (|r.a * p.x| + |r.b * p.y| + |r.c|) ∧
      |q.y - (s.a * p.x + s.b * p.y + s.c)| ≤ 5 / 2 ^ 53 * (|s.a * p.x| + |s.b * p.y| + |s.c|) := by
  have key : ∀ (t : Row) (p : Pt), R.fl t.c = t.c →
      |dotF R t p - (t.a * p.x + t.b * p.y + t.c)| ≤ 5 / 2 ^ 53 * (|t.a * p.x| + |t.b * p.y| + |t.c|) := by
    intro t p ht
    have e1 : |R.fl (t.a * p.x) - t.a * p.x| ≤ growth 1 * |t.a * p.x| := fl_growth exact_growth le_rfl
    have e2 : |R.fl (t.b * p.y) - t.b * p.y| ≤ growth 1 * |t.b * p.y| := fl_growth exact_growth le_rfl
    obtain ⟨s1, s2⟩ := add_growth e1 le_rfl e2 le_rfl
    have f1 := fl_growth (R := R) s1 s2
    have f2 := fl_growth (R := R) f1 s2
    have e3 : |t.c - t.c| ≤ growth 0 * |t.c| := exact_growth
    obtain ⟨s3, s4⟩ := add_growth f2 s2 e3 le_rfl
    have f3 := fl_growth (R := R) s3 s4
    unfold dotF
    rw [zero_mul, R.zero, add_zero, mul_one, ht]
    refine f3.trans (mul_le_mul_of_nonneg_right ?_ (by positivity))
    unfold growth; norm_num
  refine ⟨_, if_neg (by simpa using h), by simp, ?_⟩
  intro k p q hp hq
  rw [List.getElem?_map, hp] at hq
  cases hq
  exact ⟨key r p hr, key s p hs⟩

/-- C172.  The identity changes nothing. -/
theorem C172_identity (vs : List Pt) (h : vs ≠ []) (hv : ∀ p ∈ vs, Rep R p) : transformF R ⟨1, 0, 0⟩ ⟨0, 1, 0⟩ vs = .ok vs := by
  unfold transformF
  rw [if_neg (by simpa using h)]
  congr 1
  conv_rhs => rw [← List.map_id vs]
  apply List.map_congr_left
  intro p hp
  obtain ⟨h1, h2⟩ := hv p hp
  obtain ⟨x, y⟩ := p
  rw [dotF_x, dotF_y]
  simp only [one_mul, R.zero, add_zero, R.idem] at h1 h2 ⊢
  rw [h1, h2]; rfl

/-- C172.  A shift adds the vector to each vertex, with one rounding for each coordinate; other vectors than those of length two are refused. -/
theorem C172_shift (dx dy : ℚ) (vs : List Pt) (h : vs ≠ []) (hv : ∀ p ∈ vs, Rep R p) (hx : R.fl dx = dx) (hy : R.fl dy = dy) :
    shiftF R [dx, dy] vs = .ok (vs.map fun p => ⟨R.fl (p.x + dx), R.fl (p.y + dy)⟩) ∧
      ∀ v : List ℚ, v.length ≠ 2 → shiftF R v vs = .error .valueError := by
  constructor
  · show transformF R _ _ vs = _
    unfold transformF
    rw [if_neg (by simpa using h)]
    congr 1
    apply List.map_congr_left
    intro p hp
    obtain ⟨h1, h2⟩ := hv p hp
    obtain ⟨x, y⟩ := p
    rw [dotF_x, dotF_y, one_mul, one_mul]
    simp only at h1 h2 ⊢
    rw [h1, h2, hx, hy]
  · intro v hl
    match v with
    | [] => rfl
    | [_] => rfl
    | [_, _] => simp at hl
    | _ :: _ :: _ :: _ => rfl

/-- C172.  A transform that scales each axis by a number that is not negative, and shifts, takes the bounding box to the bounding box, to the last bit. -/
theorem C172_bbox (a c e f : ℚ) (ha : 0 ≤ a) (he : 0 ≤ e) (vs : List Pt) (h : vs ≠ []) :
    ∃ ws b, transformF R ⟨a, 0, c⟩ ⟨0, e, f⟩ vs = .ok ws ∧ bbox vs = some b ∧
      bbox ws = some ⟨dotF R ⟨a, 0, c⟩ ⟨b.xmin, b.ymin⟩, dotF R ⟨0, e, f⟩ ⟨b.xmin, b.ymin⟩,
        dotF R ⟨a, 0, c⟩ ⟨b.xmax, b.ymax⟩, dotF R ⟨0, e, f⟩ ⟨b.xmax, b.ymax⟩⟩ := by
  obtain ⟨p, ps, rfl⟩ := List.exists_cons_of_ne_nil h
  refine ⟨_, _, if_neg (by simp), rfl, ?_⟩
  have := bbox_map (mono_step (R := R) (c := c) ha) (mono_step (R := R) (c := f) he) (p :: ps)
  have e1 : (fun q : Pt => (⟨dotF R ⟨a, 0, c⟩ q, dotF R ⟨0, e, f⟩ q⟩ : Pt)) = fun q => ⟨R.fl (R.fl (a * q.x) + R.fl c), R.fl (R.fl (e * q.y) + R.fl f)⟩ := by
    funext q
    obtain ⟨x, y⟩ := q
    rw [dotF_x, dotF_y]
  rw [e1, this]
  simp only [dotF_x, dotF_y]
  rfl

/-- C172.  Quarter turns and reflections are exact, for roundings that treat both signs alike: each coordinate of the result is a coordinate of the
vertex or its negative. -/
theorem C172_turn (hodd : ∀ x, R.fl (-x) = -R.fl x) (vs : List Pt) (h : vs ≠ []) (hv : ∀ p ∈ vs, Rep R p) :
    transformF R ⟨0, -1, 0⟩ ⟨1, 0, 0⟩ vs = .ok (vs.map fun p => ⟨-p.y, p.x⟩) ∧
      transformF R ⟨-1, 0, 0⟩ ⟨0, 1, 0⟩ vs = .ok (vs.map fun p => ⟨-p.x, p.y⟩) := by
  constructor <;>
  · unfold transformF
    rw [if_neg (by simpa using h)]
    congr 1
    apply List.map_congr_left
    intro p hp
    obtain ⟨h1, h2⟩ := hv p hp
    obtain ⟨x, y⟩ := p
    rw [dotF_x, dotF_y]
    simp only [one_mul, neg_mul, R.zero, add_zero, hodd, R.idem] at h1 h2 ⊢
    rw [h1, h2]

/-- C172.  A shift and the opposite one give back every vertex, as far as coordinates and shift are whole numbers of units of a power of two, at most
`2 ^ 52` of them. -/
theorem C172_back_partial (k : ℤ) (dx dy : ℚ) (vs : List Pt) (h : vs ≠ [])
    (hv : ∀ p ∈ vs, InUnits k (2 ^ 52) p.x ∧ InUnits k (2 ^ 52) p.y) (hx : InUnits k (2 ^ 52) dx) (hy : InUnits k (2 ^ 52) dy) :
    ∃ ws, shiftF R [dx, dy] vs = .ok ws ∧ shiftF R [-dx, -dy] ws = .ok vs := by
  have neg : ∀ {x : ℚ}, InUnits k (2 ^ 52) x → InUnits k (2 ^ 52) (-x) := by
    rintro x ⟨n, h1, rfl⟩
    exact ⟨-n, by rwa [abs_neg], by push_cast; ring⟩
  have sums : ∀ p ∈ vs, (InUnits k (2 ^ 53) (p.x + dx) ∧ InUnits k (2 ^ 53) (p.y + dy)) := fun p hp =>
    ⟨((hv p hp).1.add hx).mono (by norm_num), ((hv p hp).2.add hy).mono (by norm_num)⟩
  have h1 := (C172_shift (R := R) dx dy vs h (fun p hp => ⟨(hv p hp).1.exact R (by norm_num), (hv p hp).2.exact R (by norm_num)⟩)
    (hx.exact R (by norm_num)) (hy.exact R (by norm_num))).1
  have e : (vs.map fun p => (⟨R.fl (p.x + dx), R.fl (p.y + dy)⟩ : Pt)) = vs.map fun p => ⟨p.x + dx, p.y + dy⟩ := by
    apply List.map_congr_left
    intro p hp
    rw [(sums p hp).1.exact R (by norm_num), (sums p hp).2.exact R (by norm_num)]
  rw [e] at h1
  refine ⟨_, h1, ?_⟩
  rw [(C172_shift (R := R) (-dx) (-dy) (vs.map fun p => (⟨p.x + dx, p.y + dy⟩ : Pt)) (by simpa using h) (by
      intro p hp
      obtain ⟨q, hq, rfl⟩ := List.mem_map.1 hp
      exact ⟨(sums q hq).1.exact R (by norm_num), (sums q hq).2.exact R (by norm_num)⟩) ((neg hx).exact R (by norm_num)) ((neg hy).exact R (by norm_num))).1]
  congr 1
  rw [List.map_map]
  conv_rhs => rw [← List.map_id vs]
  apply List.map_congr_left
  intro p hp
  simp only [Function.comp, add_neg_cancel_right, id]
  rw [(hv p hp).1.exact R (by norm_num), (hv p hp).2.exact R (by norm_num)]

/-- C172 is violated by far shifts: a line of two vertices becomes one point, and shifting back does not restore it. -/
theorem C172_violated_back :
    shiftF double [2 ^ 53, 0] [⟨0, 0⟩, ⟨1, 0⟩] = .ok [⟨2 ^ 53, 0⟩, ⟨2 ^ 53, 0⟩] ∧
      shiftF double [-2 ^ 53, 0] [⟨2 ^ 53, 0⟩, ⟨2 ^ 53, 0⟩] = .ok [⟨0, 0⟩, ⟨0, 0⟩] := by
  constructor <;> decide +kernel

/-- C172 is violated by shifts in two steps: two shifts differ from the shift by the sum of the vectors, here for vectors and vertices of about 1. -/
theorem C172_violated_steps : ∃ x a b p q r : ℚ, double.fl x = x ∧ double.fl a = a ∧ double.fl b = b ∧ double.fl (a + b) = a + b ∧
    shiftF double [a, 0] [⟨x, 0⟩] = .ok [⟨p, 0⟩] ∧ shiftF double [b, 0] [⟨p, 0⟩] = .ok [⟨q, 0⟩] ∧
    shiftF double [a + b, 0] [⟨x, 0⟩] = .ok [⟨r, 0⟩] ∧ q ≠ r := by
  refine ⟨1, 1 / 2 ^ 53, 1 / 2 ^ 53, 1, 1, 1 + 1 / 2 ^ 52, ?_, ?_, ?_, ?_, ?_, ?_, ?_, ?_⟩ <;> decide +kernel

/-! ### Examples -/

example : shiftF double [10, -3] [⟨1 / 2, 7⟩, ⟨2, 3⟩] = .ok [⟨21 / 2, 4⟩, ⟨12, 0⟩] := by decide +kernel

example : InUnits 0 (2 ^ 52) (7 : ℚ) ∧ Rep double ⟨1 / 2, 7⟩ := ⟨⟨7, by norm_num, by norm_num⟩, by constructor <;> decide +kernel⟩

end Karta.FloatAffine
