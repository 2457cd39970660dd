import Verif.Float.Length

/-!
Model of the nearest point of a planar line (`/repo/karta/vector/vectorgeo.pyx` 30-36, 197-251; `geometry.py` 725-792) with rounded arithmetic, and
property C174.
-/

namespace Karta.FloatNearest
open Karta Karta.Vec Karta.Float

variable {R : Rounding} (S : Root R)

/-- `proj2` (vectorgeo.pyx 30-33).  Simplification: products and sums are not fused. -/
def projF (R : Rounding) (u v : Pt) : Except Err Pt :=
  if R.fl (R.fl (v.x * v.x) + R.fl (v.y * v.y)) = 0 then .error .zeroDivision
  else .ok ⟨R.fl (R.fl (R.fl (R.fl (u.x * v.x) + R.fl (u.y * v.y)) / R.fl (R.fl (v.x * v.x) + R.fl (v.y * v.y))) * v.x),
    R.fl (R.fl (R.fl (R.fl (u.x * v.x) + R.fl (u.y * v.y)) / R.fl (R.fl (v.x * v.x) + R.fl (v.y * v.y))) * v.y)⟩

/-- The choice between the foot `i` of the perpendicular and an end of the segment (vectorgeo.pyx 218-251). -/
def chooseF (R : Rounding) (i pt0 pt1 : Pt) : Pt :=
  if |R.fl (pt0.x - pt1.x)| < R.fl (1 / 10000) then
    if i.y > max pt0.y pt1.y then (if pt0.y > pt1.y then pt0 else pt1)
    else if i.y < min pt0.y pt1.y then (if pt0.y < pt1.y then pt0 else pt1)
    else i
  else
    if i.x > max pt0.x pt1.x then (if pt0.x > pt1.x then pt0 else pt1)
    else if i.x < min pt0.x pt1.x then (if pt0.x < pt1.x then pt0 else pt1)
    else i

/-- `pt_nearest_planar` (vectorgeo.pyx 197-251): the point and its distance, `dist2` of which every branch takes.  Simplification: `pow(x, 2.0)` is
`x * x`, rounded. -/
def ptNearestF (pt pt0 pt1 : Pt) : Except Err (Pt × ℚ) :=
  match projF R ⟨R.fl (pt.x - pt0.x), R.fl (pt.y - pt0.y)⟩ ⟨R.fl (pt1.x - pt0.x), R.fl (pt1.y - pt0.y)⟩ with
  | .error e => .error e
  | .ok w => .ok (chooseF R ⟨R.fl (w.x + pt0.x), R.fl (w.y + pt0.y)⟩ pt0 pt1,
      distF S pt (chooseF R ⟨R.fl (w.x + pt0.x), R.fl (w.y + pt0.y)⟩ pt0 pt1))

/-- The loop of `_nearest_to_point` (geometry.py 756-761): `none` is the initial state. -/
def minLoopF : Option (Pt × ℚ) → List (Pt × ℚ) → Option (Pt × ℚ)
  | acc, [] => acc
  | none, r :: rs => minLoopF (some r) rs
  | some m, r :: rs => minLoopF (some (if r.2 < m.2 then r else m)) rs

/-- `pt_nearest_planar` of each segment in turn; the first exception is raised. -/
def eachF (pt : Pt) : List (Pt × Pt) → Except Err (List (Pt × ℚ))
  | [] => .ok []
  | s :: r =>
    match ptNearestF S pt s.1 s.2, eachF pt r with
    | .error e, _ => .error e
    | .ok _, .error e => .error e
    | .ok x, .ok xs => .ok (x :: xs)

/-- `_nearest_to_point` of a line in a planar system (geometry.py 725-763).  `none` is the pair `(-1.0, None)`. -/
def nearestToPointF (pt : Pt) (ps : List Pt) : Except Err (Option (Pt × ℚ)) :=
  match eachF S pt (List.zip ps.dropLast ps.tail) with
  | .error e => .error e
  | .ok rs => .ok (minLoopF none rs)

/-! ### Specification -/

/-- The point of the segment at the fraction `t` of the way. -/
def along (a b : Pt) (t : ℚ) : Pt := ⟨a.x + t * (b.x - a.x), a.y + t * (b.y - a.y)⟩

/-- The coordinates of a point are floating-point numbers. -/
def Rep (R : Rounding) (p : Pt) : Prop := R.fl p.x = p.x ∧ R.fl p.y = p.y

/-- The segment is taken to be wide: its width is not below the number closest to 0.0001. -/
def Wide (R : Rounding) (a b : Pt) : Prop := R.fl (1 / 10000) ≤ |R.fl (a.x - b.x)|

/-- The unit of rounding errors for a query at `p` on a segment from `a`. -/
def errUnit (p a : Pt) : ℚ := 14 / 2 ^ 53 * (|p.x - a.x| + |p.y - a.y| + |a.x| + |a.y|)

/-! ### Lemmas -/

variable {S}

theorem sum_sq_zero {x y : ℚ} : R.fl (R.fl (x * x) + R.fl (y * y)) = 0 ↔ x = 0 ∧ y = 0 := by
  rw [R.eq_zero]
  have hx : 0 ≤ R.fl (x * x) := R.nonneg (mul_self_nonneg x)
  have hy : 0 ≤ R.fl (y * y) := R.nonneg (mul_self_nonneg y)
  constructor
  · intro h
    have h1 : R.fl (x * x) = 0 := by linarith
    have h2 : R.fl (y * y) = 0 := by linarith
    exact ⟨mul_self_eq_zero.1 (R.eq_zero.1 h1), mul_self_eq_zero.1 (R.eq_zero.1 h2)⟩
  · rintro ⟨rfl, rfl⟩
    rw [mul_zero, R.zero, add_zero]

/-- The rounded foot of the perpendicular. -/
def footF (R : Rounding) (pt pt0 pt1 : Pt) : Pt :=
  let u : Pt := ⟨R.fl (pt.x - pt0.x), R.fl (pt.y - pt0.y)⟩
  let v : Pt := ⟨R.fl (pt1.x - pt0.x), R.fl (pt1.y - pt0.y)⟩
  let r := R.fl (R.fl (R.fl (u.x * v.x) + R.fl (u.y * v.y)) / R.fl (R.fl (v.x * v.x) + R.fl (v.y * v.y)))
  ⟨R.fl (R.fl (r * v.x) + pt0.x), R.fl (R.fl (r * v.y) + pt0.y)⟩

theorem ne_iff {a b : Pt} : a ≠ b ↔ ¬ (R.fl (b.x - a.x) = 0 ∧ R.fl (b.y - a.y) = 0) := by
  rw [R.eq_zero, R.eq_zero, sub_eq_zero, sub_eq_zero]
  obtain ⟨x, y⟩ := a
  obtain ⟨z, w⟩ := b
  simp only [ne_eq, P2.mk.injEq]
  constructor
  · rintro h ⟨h1, h2⟩; exact h ⟨h1.symm, h2.symm⟩
  · rintro h ⟨h1, h2⟩; exact h ⟨h1.symm, h2.symm⟩

theorem ptNearestF_ok (pt : Pt) {a b : Pt} (h : a ≠ b) :
    ptNearestF S pt a b = .ok (chooseF R (footF R pt a b) a b, distF S pt (chooseF R (footF R pt a b) a b)) := by
  unfold ptNearestF projF
  rw [if_neg (by rw [sum_sq_zero]; exact ne_iff.1 h)]
  rfl

theorem chooseF_wide {i a b : Pt} (h : Wide R a b) : chooseF R i a b =
    if i.x > max a.x b.x then (if a.x > b.x then a else b) else if i.x < min a.x b.x then (if a.x < b.x then a else b) else i := by
  unfold chooseF
  rw [if_neg (not_lt.2 h)]

theorem chooseF_narrow {i a b : Pt} (h : ¬ Wide R a b) : chooseF R i a b =
    if i.y > max a.y b.y then (if a.y > b.y then a else b) else if i.y < min a.y b.y then (if a.y < b.y then a else b) else i := by
  unfold chooseF
  rw [if_pos (not_le.1 h)]

theorem wide_ne {a b : Pt} (h : Wide R a b) : b.x - a.x ≠ 0 := by
  intro e
  unfold Wide at h
  rw [show a.x - b.x = 0 by linarith, R.zero, abs_zero] at h
  exact absurd (R.pos (by norm_num : (0 : ℚ) < 1 / 10000)) (not_lt.2 h)

theorem mul_le_squares {p q w : ℚ} (hp : 0 ≤ p) (hq : 0 ≤ q) (h : w ≤ p ∨ w ≤ q) : w * p ≤ p ^ 2 + q ^ 2 ∧ w * q ≤ p ^ 2 + q ^ 2 := by
  have k := sq_nonneg (p - q)
  have k1 := sq_nonneg p
  have k2 := sq_nonneg q
  rcases h with h | h
  · have a := mul_le_mul_of_nonneg_right h hp
    have b := mul_le_mul_of_nonneg_right h hq
    constructor <;> linarith [pow_two p, pow_two q, sub_sq p q, mul_comm p q]
  · have a := mul_le_mul_of_nonneg_right h hp
    have b := mul_le_mul_of_nonneg_right h hq
    constructor <;> linarith [pow_two p, pow_two q, sub_sq p q, mul_comm p q]

theorem bound_aux {ux uy vx vy v : ℚ} (hv : |v| ≤ |vx| ∨ |v| ≤ |vy|) : (|ux| * |vx| + |uy| * |vy|) * |v| ≤ (|ux| + |uy|) * (vx ^ 2 + vy ^ 2) := by
  obtain ⟨h1, h2⟩ := mul_le_squares (abs_nonneg vx) (abs_nonneg vy) hv
  rw [sq_abs, sq_abs] at h1 h2
  have a := mul_le_mul_of_nonneg_left h1 (abs_nonneg ux)
  have b := mul_le_mul_of_nonneg_left h2 (abs_nonneg uy)
  calc (|ux| * |vx| + |uy| * |vy|) * |v| = |ux| * (|v| * |vx|) + |uy| * (|v| * |vy|) := by ring
    _ ≤ |ux| * (vx ^ 2 + vy ^ 2) + |uy| * (vx ^ 2 + vy ^ 2) := add_le_add a b
    _ = _ := by ring

/-- The rounded foot is close to the foot. -/
theorem foot_close (p a b : Pt) (h : a ≠ b) :
    let t := ((p.x - a.x) * (b.x - a.x) + (p.y - a.y) * (b.y - a.y)) / ((b.x - a.x) ^ 2 + (b.y - a.y) ^ 2)
    |(footF R p a b).x - (along a b t).x| ≤ errUnit p a ∧ |(footF R p a b).y - (along a b t).y| ≤ errUnit p a := by
  intro t
  set ux := p.x - a.x with hux
  set uy := p.y - a.y with huy
  set vx := b.x - a.x with hvx
  set vy := b.y - a.y with hvy
  have Q0 : 0 < vx ^ 2 + vy ^ 2 := by
    have : ¬ (vx = 0 ∧ vy = 0) := by
      have := (ne_iff (R := R)).1 h
      rwa [R.eq_zero, R.eq_zero] at this
    rcases not_and_or.1 this with e | e
    · have := pow_pos (abs_pos.2 e) 2
      rw [sq_abs] at this
      nlinarith [sq_nonneg vy]
    · have := pow_pos (abs_pos.2 e) 2
      rw [sq_abs] at this
      nlinarith [sq_nonneg vx]
  have one : ∀ x : ℚ, |R.fl x - x| ≤ growth 1 * |x| := fun x => fl_growth exact_growth le_rfl
  have prod : ∀ x y : ℚ, |R.fl (R.fl x * R.fl y) - x * y| ≤ growth 3 * (|x| * |y|) ∧ |x * y| ≤ |x| * |y| := fun x y => by
    obtain ⟨m1, m2⟩ := mul_growth (one x) le_rfl (one y) le_rfl
    exact ⟨fl_growth m1 m2, m2⟩
  obtain ⟨n1, n2⟩ := add_growth (prod ux vx).1 (prod ux vx).2 (prod uy vy).1 (prod uy vy).2
  have n3 := fl_growth (R := R) n1 n2
  obtain ⟨d1, d2⟩ := add_growth (prod vx vx).1 (prod vx vx).2 (prod vy vy).1 (prod vy vy).2
  have d3 := fl_growth (R := R) d1 d2
  rw [abs_mul_abs_self, abs_mul_abs_self, show vx * vx + vy * vy = vx ^ 2 + vy ^ 2 by ring] at d3
  set N := |ux| * |vx| + |uy| * |vy| with hN
  set Q := vx ^ 2 + vy ^ 2 with hQ
  set num := R.fl (R.fl (R.fl ux * R.fl vx) + R.fl (R.fl uy * R.fl vy)) with hnum
  set den := R.fl (R.fl (R.fl vx * R.fl vx) + R.fl (R.fl vy * R.fl vy)) with hden
  have N0 : 0 ≤ N := by positivity
  have d4 : |den - Q| ≤ growth 4 * Q := d3
  have lo : (1 - growth 4) * Q ≤ den := by
    have := (abs_le.1 d4).1
    linarith
  have g4 : growth 4 ≤ 1 / 2 := by unfold growth; norm_num
  have den0 : 0 < den := lt_of_lt_of_le (by nlinarith) lo
  have r1 : |num / den - t| ≤ growth 9 * (N / Q) := by
    have e : num / den - t = ((num - (ux * vx + uy * vy)) * Q + (ux * vx + uy * vy) * (Q - den)) / (den * Q) := by
      show num / den - (ux * vx + uy * vy) / Q = _
      field_simp; ring
    rw [e, abs_div, abs_of_pos (mul_pos den0 Q0), div_le_iff₀ (mul_pos den0 Q0)]
    have u1 : |(num - (ux * vx + uy * vy)) * Q + (ux * vx + uy * vy) * (Q - den)| ≤ growth 4 * N * Q + N * (growth 4 * Q) := by
      refine (abs_add_le _ _).trans ?_
      rw [abs_mul (num - _) Q, abs_mul (ux * vx + uy * vy) (Q - den), abs_of_pos Q0, abs_sub_comm Q den]
      exact add_le_add (mul_le_mul_of_nonneg_right n3 Q0.le) (mul_le_mul n2 d4 (abs_nonneg _) N0)
    refine u1.trans ?_
    have e2 : growth 9 * (N / Q) * (den * Q) = growth 9 * N * den := by field_simp
    rw [e2]
    refine le_trans ?_ (mul_le_mul_of_nonneg_left lo (mul_nonneg (growth_nonneg 9) N0))
    have u3 : growth 4 + growth 4 ≤ growth 9 * (1 - growth 4) := by unfold growth; norm_num
    have := mul_le_mul_of_nonneg_right u3 (mul_nonneg N0 Q0.le)
    calc growth 4 * N * Q + N * (growth 4 * Q) = (growth 4 + growth 4) * (N * Q) := by ring
      _ ≤ growth 9 * (1 - growth 4) * (N * Q) := this
      _ = growth 9 * N * ((1 - growth 4) * Q) := by ring
  have tN : |t| ≤ N / Q := by
    show |(ux * vx + uy * vy) / Q| ≤ _
    rw [abs_div, abs_of_pos Q0]
    exact div_le_div_of_nonneg_right n2 Q0.le
  have r2 := fl_growth (R := R) r1 tN
  have step : ∀ v o : ℚ, |v| ≤ |vx| ∨ |v| ≤ |vy| → |R.fl (R.fl (R.fl (num / den) * R.fl v) + o) - (o + t * v)| ≤
      growth 13 * (|ux| + |uy| + |o|) := by
    intro v o hv
    obtain ⟨m1, m2⟩ := mul_growth r2 tN (one v) le_rfl
    have m3 := fl_growth (R := R) m1 m2
    have bound : N / Q * |v| ≤ |ux| + |uy| := by
      rw [div_mul_eq_mul_div, div_le_iff₀ Q0]
      exact bound_aux hv
    have m4 : |R.fl (R.fl (num / den) * R.fl v) - t * v| ≤ growth 12 * (|ux| + |uy|) :=
      m3.trans (mul_le_mul_of_nonneg_left bound (growth_nonneg _))
    have m5 : |t * v| ≤ |ux| + |uy| := m2.trans bound
    obtain ⟨s1, s2⟩ := add_growth m4 m5 (exact_growth (x := o) (M := |o|)) le_rfl
    have := fl_growth (R := R) s1 s2
    rw [add_comm o]
    exact this
  have e14 : growth 13 ≤ 14 / 2 ^ 53 := by unfold growth; norm_num
  unfold errUnit
  constructor
  · refine (step vx a.x (.inl le_rfl)).trans (mul_le_mul e14 ?_ (by positivity) (by norm_num))
    have := abs_nonneg a.y
    linarith
  · refine (step vy a.y (.inr le_rfl)).trans (mul_le_mul e14 ?_ (by positivity) (by norm_num))
    have := abs_nonneg a.x
    linarith

theorem trueDist_step (p q r : Pt) : trueDist p r ≤ trueDist p q + ((|r.x - q.x| + |r.y - q.y| : ℚ) : ℝ) := by
  unfold trueDist
  set a : ℝ := ((q.x - p.x : ℚ) : ℝ) with ha
  set b : ℝ := ((q.y - p.y : ℚ) : ℝ) with hb
  set c : ℝ := ((r.x - q.x : ℚ) : ℝ) with hc
  set d : ℝ := ((r.y - q.y : ℚ) : ℝ) with hd
  have e1 : (((r.x - p.x) ^ 2 + (r.y - p.y) ^ 2 : ℚ) : ℝ) = (a + c) ^ 2 + (b + d) ^ 2 := by
    rw [ha, hb, hc, hd]; push_cast; ring
  have e2 : (((q.x - p.x) ^ 2 + (q.y - p.y) ^ 2 : ℚ) : ℝ) = a ^ 2 + b ^ 2 := by
    rw [ha, hb]; push_cast; ring
  have e3 : ((|r.x - q.x| + |r.y - q.y| : ℚ) : ℝ) = |c| + |d| := by rw [hc, hd]; push_cast; ring
  rw [e1, e2, e3]
  have s0 : 0 ≤ Real.sqrt (a ^ 2 + b ^ 2) := Real.sqrt_nonneg _
  have s1 := Real.sq_sqrt (by positivity : 0 ≤ a ^ 2 + b ^ 2)
  have sa : |a| ≤ Real.sqrt (a ^ 2 + b ^ 2) := Real.abs_le_sqrt (by nlinarith [sq_nonneg b])
  have sb : |b| ≤ Real.sqrt (a ^ 2 + b ^ 2) := Real.abs_le_sqrt (by nlinarith [sq_nonneg a])
  set s := Real.sqrt (a ^ 2 + b ^ 2) with hs
  rw [Real.sqrt_le_left (by positivity)]
  have k1 : a * c ≤ s * |c| := (le_abs_self _).trans (by rw [abs_mul]; exact mul_le_mul_of_nonneg_right sa (abs_nonneg _))
  have k2 : b * d ≤ s * |d| := (le_abs_self _).trans (by rw [abs_mul]; exact mul_le_mul_of_nonneg_right sb (abs_nonneg _))
  have k3 := sq_abs c
  have k4 := sq_abs d
  have k5 := mul_nonneg (abs_nonneg c) (abs_nonneg d)
  nlinarith

/-- The fraction at which the foot of the perpendicular lies. -/
def foot (p a b : Pt) : ℚ := ((p.x - a.x) * (b.x - a.x) + (p.y - a.y) * (b.y - a.y)) / ((b.x - a.x) ^ 2 + (b.y - a.y) ^ 2)

theorem trueDist_along (p a b : Pt) (h : (b.x - a.x) ^ 2 + (b.y - a.y) ^ 2 ≠ 0) {s t : ℚ} (hst : |foot p a b - s| ≤ |foot p a b - t|) :
    trueDist p (along a b s) ≤ trueDist p (along a b t) := by
  unfold trueDist
  apply Real.sqrt_le_sqrt
  have key : ∀ r : ℚ, ((along a b r).x - p.x) ^ 2 + ((along a b r).y - p.y) ^ 2 =
      ((along a b (foot p a b)).x - p.x) ^ 2 + ((along a b (foot p a b)).y - p.y) ^ 2 +
        (foot p a b - r) ^ 2 * ((b.x - a.x) ^ 2 + (b.y - a.y) ^ 2) := by
    intro r
    have e : foot p a b * ((b.x - a.x) ^ 2 + (b.y - a.y) ^ 2) = (p.x - a.x) * (b.x - a.x) + (p.y - a.y) * (b.y - a.y) := by
      unfold foot; exact div_mul_cancel₀ _ h
    generalize foot p a b = f at *
    simp only [along]
    linear_combination (2 * (r - f)) * e
  rw [key s, key t]
  have := sq_le_sq.2 hst
  have q : 0 ≤ (b.x - a.x) ^ 2 + (b.y - a.y) ^ 2 := by positivity
  exact_mod_cast add_le_add_right (mul_le_mul_of_nonneg_right this q) _

/-- An end is a good answer if the foot is not far before it, or beyond it. -/
theorem end_close {p a b : Pt} {E : ℚ} (hE : 0 ≤ E) (hv : b.x - a.x ≠ 0) (e : ℚ)
    (h : |(foot p a b - e) * (b.x - a.x)| ≤ E ∨ ∀ s, 0 ≤ s → s ≤ 1 → |(foot p a b - e) * (b.x - a.x)| ≤ |(foot p a b - s) * (b.x - a.x)|)
    (s : ℚ) (h0 : 0 ≤ s) (h1 : s ≤ 1) :
    trueDist p (along a b e) ≤ trueDist p (along a b s) + ((E * (2 + |b.y - a.y| / |b.x - a.x|) : ℚ) : ℝ) := by
  have vp := abs_pos.2 hv
  have Q : (b.x - a.x) ^ 2 + (b.y - a.y) ^ 2 ≠ 0 := by
    have := pow_pos vp 2
    rw [sq_abs] at this
    nlinarith [sq_nonneg (b.y - a.y)]
  have k0 : 0 ≤ |b.y - a.y| / |b.x - a.x| := by positivity
  rcases h with h | h
  · have f := trueDist_step p (along a b (foot p a b)) (along a b e)
    have g := trueDist_along p a b Q (s := foot p a b) (t := s) (by rw [sub_self, abs_zero]; exact abs_nonneg _)
    refine f.trans (add_le_add g (Rat.cast_le.2 ?_))
    have e1 : |(along a b e).x - (along a b (foot p a b)).x| ≤ E := by
      rw [abs_sub_comm]
      simp only [along]
      rwa [show a.x + foot p a b * (b.x - a.x) - (a.x + e * (b.x - a.x)) = (foot p a b - e) * (b.x - a.x) by ring]
    have e2 : |(along a b e).y - (along a b (foot p a b)).y| ≤ E * (|b.y - a.y| / |b.x - a.x|) := by
      rw [abs_sub_comm]
      simp only [along]
      rw [show a.y + foot p a b * (b.y - a.y) - (a.y + e * (b.y - a.y)) = (foot p a b - e) * (b.y - a.y) by ring, abs_mul,
        ← mul_div_assoc, le_div_iff₀ vp]
      rw [abs_mul] at h
      nlinarith [mul_le_mul_of_nonneg_right h (abs_nonneg (b.y - a.y))]
    nlinarith
  · have g := trueDist_along p a b Q (s := e) (t := s) (by
      have := h s h0 h1
      rw [abs_mul, abs_mul] at this
      exact le_of_mul_le_mul_right this vp)
    have : (0 : ℝ) ≤ ((E * (2 + |b.y - a.y| / |b.x - a.x|) : ℚ) : ℝ) := by
      have : (0 : ℚ) ≤ E * (2 + |b.y - a.y| / |b.x - a.x|) := by positivity
      exact_mod_cast this
    linarith

/-- The choice by the first coordinate. -/
theorem choose_close {p a b i : Pt} {E : ℚ} (hE : 0 ≤ E) (hv : b.x - a.x ≠ 0) (hx : |i.x - (along a b (foot p a b)).x| ≤ E)
    (hy : |i.y - (along a b (foot p a b)).y| ≤ E) :
    let q := if i.x > max a.x b.x then (if a.x > b.x then a else b) else if i.x < min a.x b.x then (if a.x < b.x then a else b) else i
    (∃ s, 0 ≤ s ∧ s ≤ 1 ∧ |q.x - (along a b s).x| ≤ E ∧ |q.y - (along a b s).y| ≤ E * (1 + |b.y - a.y| / |b.x - a.x|)) ∧
      ∀ s, 0 ≤ s → s ≤ 1 → trueDist p q ≤ trueDist p (along a b s) + ((E * (2 + |b.y - a.y| / |b.x - a.x|) : ℚ) : ℝ) := by
  intro q
  have vp := abs_pos.2 hv
  have k0 : 0 ≤ |b.y - a.y| / |b.x - a.x| := by positivity
  have endpt : ∀ e : ℚ, 0 ≤ e → e ≤ 1 → q = along a b e →
      (|(foot p a b - e) * (b.x - a.x)| ≤ E ∨ ∀ s, 0 ≤ s → s ≤ 1 → |(foot p a b - e) * (b.x - a.x)| ≤ |(foot p a b - s) * (b.x - a.x)|) →
      (∃ s, 0 ≤ s ∧ s ≤ 1 ∧ |q.x - (along a b s).x| ≤ E ∧ |q.y - (along a b s).y| ≤ E * (1 + |b.y - a.y| / |b.x - a.x|)) ∧
      ∀ s, 0 ≤ s → s ≤ 1 → trueDist p q ≤ trueDist p (along a b s) + ((E * (2 + |b.y - a.y| / |b.x - a.x|) : ℚ) : ℝ) := by
    intro e e0 e1 hq hor
    rw [hq]
    refine ⟨⟨e, e0, e1, ?_, ?_⟩, end_close hE hv e hor⟩
    · rw [sub_self, abs_zero]; exact hE
    · rw [sub_self, abs_zero]; positivity
  have fa : a = along a b 0 := by simp [along]
  have fb : b = along a b 1 := by simp [along]
  have fx : (along a b (foot p a b)).x = a.x + foot p a b * (b.x - a.x) := rfl
  rw [fx] at hx
  obtain ⟨hx1, hx2⟩ := abs_le.1 hx
  set f := foot p a b with hf
  by_cases c1 : i.x > max a.x b.x
  · rcases lt_or_ge b.x a.x with o | o
    · have hq : q = a := by show (if _ then _ else _) = _; rw [if_pos c1, if_pos o]
      rw [max_eq_left o.le] at c1
      refine endpt 0 le_rfl zero_le_one (hq.trans fa) ?_
      by_cases c2 : f * (b.x - a.x) ≤ 0
      · left; rw [sub_zero, abs_of_nonpos c2]; linarith
      · right; intro s s0 s1
        have n : s * (b.x - a.x) ≤ 0 := mul_nonpos_of_nonneg_of_nonpos s0 (by linarith)
        rw [sub_zero, sub_mul, abs_of_pos (not_le.1 c2), abs_of_nonneg (by linarith [not_le.1 c2])]; linarith
    · have hq : q = b := by show (if _ then _ else _) = _; rw [if_pos c1, if_neg (not_lt.2 o)]
      rw [max_eq_right o] at c1
      refine endpt 1 zero_le_one le_rfl (hq.trans fb) ?_
      by_cases c2 : (f - 1) * (b.x - a.x) ≤ 0
      · left; rw [abs_of_nonpos c2]; linarith
      · right; intro s s0 s1
        have n : (s - 1) * (b.x - a.x) ≤ 0 := mul_nonpos_of_nonpos_of_nonneg (by linarith) (by linarith)
        rw [abs_of_pos (not_le.1 c2), abs_of_nonneg (by linarith [not_le.1 c2])]; linarith
  · by_cases c3 : i.x < min a.x b.x
    · rcases lt_or_ge a.x b.x with o | o
      · have hq : q = a := by show (if _ then _ else _) = _; rw [if_neg c1, if_pos c3, if_pos o]
        rw [min_eq_left o.le] at c3
        refine endpt 0 le_rfl zero_le_one (hq.trans fa) ?_
        by_cases c2 : 0 ≤ f * (b.x - a.x)
        · left; rw [sub_zero, abs_of_nonneg c2]; linarith
        · right; intro s s0 s1
          have n : 0 ≤ s * (b.x - a.x) := mul_nonneg s0 (by linarith)
          rw [sub_zero, sub_mul, abs_of_neg (not_le.1 c2), abs_of_nonpos (by linarith [not_le.1 c2])]; linarith
      · have hq : q = b := by show (if _ then _ else _) = _; rw [if_neg c1, if_pos c3, if_neg (not_lt.2 o)]
        rw [min_eq_right o] at c3
        refine endpt 1 zero_le_one le_rfl (hq.trans fb) ?_
        by_cases c2 : 0 ≤ (f - 1) * (b.x - a.x)
        · left; rw [abs_of_nonneg c2]; linarith
        · right; intro s s0 s1
          have n : 0 ≤ (s - 1) * (b.x - a.x) := mul_nonneg_of_nonpos_of_nonpos (by linarith) (by linarith)
          rw [abs_of_neg (not_le.1 c2), abs_of_nonpos (by linarith [not_le.1 c2])]; linarith
    · have hq : q = i := by show (if _ then _ else _) = _; rw [if_neg c1, if_neg c3]
      push Not at c1 c3
      rw [hq]
      have sx : (i.x - a.x) / (b.x - a.x) * (b.x - a.x) = i.x - a.x := div_mul_cancel₀ _ hv
      have s01 : 0 ≤ (i.x - a.x) / (b.x - a.x) ∧ (i.x - a.x) / (b.x - a.x) ≤ 1 := by
        rcases lt_or_gt_of_ne hv with o | o
        · rw [max_eq_left (by linarith)] at c1
          rw [min_eq_right (by linarith)] at c3
          exact ⟨div_nonneg_of_nonpos (by linarith) o.le, by rw [div_le_one_of_neg o]; linarith⟩
        · rw [max_eq_right (by linarith)] at c1
          rw [min_eq_left (by linarith)] at c3
          exact ⟨div_nonneg (by linarith) o.le, by rw [div_le_one o]; linarith⟩
      set s := (i.x - a.x) / (b.x - a.x) with hs
      refine ⟨⟨s, s01.1, s01.2, ?_, ?_⟩, ?_⟩
      · show |i.x - (a.x + s * (b.x - a.x))| ≤ E
        rw [sx]; simpa using hE
      · have d : |(f - s) * (b.y - a.y)| ≤ E * (|b.y - a.y| / |b.x - a.x|) := by
          rw [abs_mul, ← mul_div_assoc, le_div_iff₀ vp]
          have : |(f - s) * (b.x - a.x)| ≤ E := by
            rw [sub_mul, sx, abs_sub_comm]
            rwa [show i.x - a.x - f * (b.x - a.x) = i.x - (a.x + f * (b.x - a.x)) by ring]
          rw [abs_mul] at this
          nlinarith [mul_le_mul_of_nonneg_right this (abs_nonneg (b.y - a.y))]
        have t := abs_add_le (i.y - (along a b f).y) ((f - s) * (b.y - a.y))
        have e : i.y - (along a b f).y + (f - s) * (b.y - a.y) = i.y - (along a b s).y := by simp only [along]; ring
        rw [e] at t
        linarith
      · intro r _ _
        have Q : (b.x - a.x) ^ 2 + (b.y - a.y) ^ 2 ≠ 0 := by
          have := pow_pos vp 2
          rw [sq_abs] at this
          nlinarith [sq_nonneg (b.y - a.y)]
        have g := trueDist_along p a b Q (s := f) (t := r) (by rw [← hf, sub_self, abs_zero]; exact abs_nonneg _)
        refine (trueDist_step p (along a b f) i).trans (add_le_add g (Rat.cast_le.2 ?_))
        have : |i.x - (along a b f).x| ≤ E := hx
        nlinarith

/-! Exchange of the coordinates. -/

/-- A point with its coordinates exchanged. -/
def flip (p : Pt) : Pt := ⟨p.y, p.x⟩

theorem flip_along (a b : Pt) (t : ℚ) : flip (along a b t) = along (flip a) (flip b) t := rfl

theorem trueDist_flip (p q : Pt) : trueDist (flip p) (flip q) = trueDist p q := by
  unfold trueDist flip
  rw [add_comm]

theorem foot_flip (p a b : Pt) : foot (flip p) (flip a) (flip b) = foot p a b := by
  unfold foot flip
  rw [add_comm, add_comm ((b.y - a.y) ^ 2)]

theorem flip_ite {c : Prop} [Decidable c] (p q : Pt) : flip (if c then p else q) = if c then flip p else flip q := by
  split_ifs <;> rfl

/-- The choice by the second coordinate. -/
theorem choose_close_y {p a b i : Pt} {E : ℚ} (hE : 0 ≤ E) (hv : b.y - a.y ≠ 0) (hx : |i.x - (along a b (foot p a b)).x| ≤ E)
    (hy : |i.y - (along a b (foot p a b)).y| ≤ E) :
    let q := if i.y > max a.y b.y then (if a.y > b.y then a else b) else if i.y < min a.y b.y then (if a.y < b.y then a else b) else i
    (∃ s, 0 ≤ s ∧ s ≤ 1 ∧ |q.y - (along a b s).y| ≤ E ∧ |q.x - (along a b s).x| ≤ E * (1 + |b.x - a.x| / |b.y - a.y|)) ∧
      ∀ s, 0 ≤ s → s ≤ 1 → trueDist p q ≤ trueDist p (along a b s) + ((E * (2 + |b.x - a.x| / |b.y - a.y|) : ℚ) : ℝ) := by
  intro q
  have h := choose_close (p := flip p) (a := flip a) (b := flip b) (i := flip i) hE hv (by rw [foot_flip]; exact hy) (by rw [foot_flip]; exact hx)
  have e : flip q = if (flip i).x > max (flip a).x (flip b).x then (if (flip a).x > (flip b).x then flip a else flip b)
      else if (flip i).x < min (flip a).x (flip b).x then (if (flip a).x < (flip b).x then flip a else flip b) else flip i := by
    show flip (if _ then _ else _) = _
    rw [flip_ite, flip_ite, flip_ite, flip_ite]; rfl
  simp only [← e, ← flip_along, trueDist_flip] at h
  exact h

theorem errUnit_nonneg (p a : Pt) : 0 ≤ errUnit p a := by unfold errUnit; positivity

/-! ### C174 -/

/-- C174.  A segment whose ends coincide is refused; every other one has an answer, and the distance returned is that of the point returned, within
seven units of rounding. -/
theorem C174_answers (p a b : Pt) : (a = b → ptNearestF S p a b = .error .zeroDivision) ∧
    (a ≠ b → ∃ q d, ptNearestF S p a b = .ok (q, d) ∧ |(d : ℝ) - trueDist p q| ≤ 7 / 2 ^ 53 * trueDist p q) := by
  constructor
  · rintro rfl
    unfold ptNearestF projF
    rw [if_pos (by rw [sum_sq_zero]; simp [R.zero])]
  · intro h
    exact ⟨_, _, ptNearestF_ok p h, C169_distance S _ _⟩

/-- C174.  On a segment that is not narrower than 0.0001, the point returned is close to a point of the segment, and hardly farther from the query than
any point of the segment: the bounds grow with the slope of the segment. -/
theorem C174_wide (p a b : Pt) (h : Wide R a b) : ∃ q d, ptNearestF S p a b = .ok (q, d) ∧
    (∃ s, 0 ≤ s ∧ s ≤ 1 ∧ |q.x - (along a b s).x| ≤ errUnit p a ∧
      |q.y - (along a b s).y| ≤ errUnit p a * (1 + |b.y - a.y| / |b.x - a.x|)) ∧
    ∀ s, 0 ≤ s → s ≤ 1 → trueDist p q ≤ trueDist p (along a b s) + ((errUnit p a * (2 + |b.y - a.y| / |b.x - a.x|) : ℚ) : ℝ) := by
  have hv := wide_ne h
  have hne : a ≠ b := by rintro rfl; simp at hv
  obtain ⟨hx, hy⟩ := foot_close (R := R) p a b hne
  refine ⟨_, _, ptNearestF_ok p hne, ?_⟩
  rw [chooseF_wide h]
  exact choose_close (errUnit_nonneg p a) hv hx hy

/-- C174.  On a segment narrower than 0.0001 that is not horizontal, likewise; the bounds grow as the segment becomes flat. -/
theorem C174_narrow (p a b : Pt) (h : ¬ Wide R a b) (hy : a.y ≠ b.y) : ∃ q d, ptNearestF S p a b = .ok (q, d) ∧
    (∃ s, 0 ≤ s ∧ s ≤ 1 ∧ |q.y - (along a b s).y| ≤ errUnit p a ∧
      |q.x - (along a b s).x| ≤ errUnit p a * (1 + |b.x - a.x| / |b.y - a.y|)) ∧
    ∀ s, 0 ≤ s → s ≤ 1 → trueDist p q ≤ trueDist p (along a b s) + ((errUnit p a * (2 + |b.x - a.x| / |b.y - a.y|) : ℚ) : ℝ) := by
  have hv : b.y - a.y ≠ 0 := fun e => hy (by linarith)
  have hne : a ≠ b := by rintro rfl; exact hy rfl
  obtain ⟨h1, h2⟩ := foot_close (R := R) p a b hne
  refine ⟨_, _, ptNearestF_ok p hne, ?_⟩
  rw [chooseF_narrow h]
  exact choose_close_y (errUnit_nonneg p a) hv h1 h2

/-- C174.  On horizontal segments that are not narrower than 0.0001, and on vertical segments, the point returned lies on the segment exactly. -/
theorem C174_axis (p a b : Pt) (ha : Rep R a) :
    (a.y = b.y → Wide R a b → ∃ q d, ptNearestF S p a b = .ok (q, d) ∧ q.y = a.y ∧ min a.x b.x ≤ q.x ∧ q.x ≤ max a.x b.x) ∧
    (a.x = b.x → a.y ≠ b.y → ∃ q d, ptNearestF S p a b = .ok (q, d) ∧ q.x = a.x ∧ min a.y b.y ≤ q.y ∧ q.y ≤ max a.y b.y) := by
  constructor
  · intro e h
    have hv := wide_ne h
    have hne : a ≠ b := by rintro rfl; simp at hv
    refine ⟨_, _, ptNearestF_ok p hne, ?_⟩
    rw [chooseF_wide h]
    have fy : (footF R p a b).y = a.y := by
      simp only [footF]
      rw [← e, sub_self, R.zero, mul_zero, R.zero, zero_add, ha.2]
    split_ifs with c1 c2 c3 c4
    · exact ⟨rfl, min_le_left _ _, le_max_left _ _⟩
    · exact ⟨e.symm, min_le_right _ _, le_max_right _ _⟩
    · exact ⟨rfl, min_le_left _ _, le_max_left _ _⟩
    · exact ⟨e.symm, min_le_right _ _, le_max_right _ _⟩
    · exact ⟨fy, not_lt.1 c3, not_lt.1 c1⟩
  · intro e hy
    have hne : a ≠ b := by rintro rfl; exact hy rfl
    have h : ¬ Wide R a b := fun w => wide_ne w (by rw [e, sub_self])
    refine ⟨_, _, ptNearestF_ok p hne, ?_⟩
    rw [chooseF_narrow h]
    have fx : (footF R p a b).x = a.x := by
      simp only [footF]
      rw [← e, sub_self, R.zero, mul_zero, R.zero, zero_add, ha.1]
    split_ifs with c1 c2 c3 c4
    · exact ⟨rfl, min_le_left _ _, le_max_left _ _⟩
    · exact ⟨e.symm, min_le_right _ _, le_max_right _ _⟩
    · exact ⟨rfl, min_le_left _ _, le_max_left _ _⟩
    · exact ⟨e.symm, min_le_right _ _, le_max_right _ _⟩
    · exact ⟨fx, not_lt.1 c3, not_lt.1 c1⟩

theorem ptNearestF_start {a b : Pt} (ha : Rep R a) (h : a ≠ b) : ptNearestF S a a b = .ok (a, 0) := by
  have f : footF R a a b = a := by
    simp only [footF, sub_self, R.zero, zero_mul, add_zero, zero_div, zero_add]
    rw [ha.1, ha.2]
  have c : chooseF R a a b = a := by
    unfold chooseF
    rw [if_neg (not_lt.2 (le_max_left a.y b.y)), if_neg (not_lt.2 (min_le_left a.y b.y)), if_neg (not_lt.2 (le_max_left a.x b.x)),
      if_neg (not_lt.2 (min_le_left a.x b.x)), ite_self]
  rw [ptNearestF_ok a h, f, c, (C169_zero S a a).2.2 rfl]

theorem minLoopF_some (m : Pt × ℚ) (rs : List (Pt × ℚ)) : ∃ k, minLoopF (some m) rs = some k ∧ k ∈ m :: rs ∧ ∀ r ∈ m :: rs, k.2 ≤ r.2 := by
  induction rs generalizing m with
  | nil => exact ⟨m, rfl, List.mem_singleton.2 rfl, fun r hr => by rw [List.mem_singleton.1 hr]⟩
  | cons r rs ih =>
    obtain ⟨k, h1, h2, h3⟩ := ih (if r.2 < m.2 then r else m)
    refine ⟨k, h1, ?_, ?_⟩
    · rcases List.mem_cons.1 h2 with e | e
      · rw [e]
        split_ifs
        · exact List.mem_cons_of_mem _ List.mem_cons_self
        · exact List.mem_cons_self
      · exact List.mem_cons_of_mem _ (List.mem_cons_of_mem _ e)
    · have h0 := h3 _ List.mem_cons_self
      intro x hx
      rcases List.mem_cons.1 hx with rfl | hx
      · split_ifs at h0 with c
        · exact h0.trans c.le
        · exact h0
      · rcases List.mem_cons.1 hx with rfl | hx
        · split_ifs at h0 with c
          · exact h0
          · exact h0.trans (not_lt.1 c)
        · exact h3 x (List.mem_cons_of_mem _ hx)

/-- The answers of the segments of a line without repeated vertices. -/
theorem eachF_ok (p : Pt) : ∀ l : List (Pt × Pt), (∀ s ∈ l, s.1 ≠ s.2) → ∃ rs, eachF S p l = .ok rs ∧
    (∀ r ∈ rs, ∃ s ∈ l, ptNearestF S p s.1 s.2 = .ok r) ∧ (∀ s ∈ l, ∃ r ∈ rs, ptNearestF S p s.1 s.2 = .ok r)
  | [], _ => ⟨[], rfl, by simp, by simp⟩
  | s :: l, h => by
    obtain ⟨rs, e, h1, h2⟩ := eachF_ok p l (fun t ht => h t (List.mem_cons_of_mem _ ht))
    have hs := ptNearestF_ok (S := S) p (h s List.mem_cons_self)
    refine ⟨_ :: rs, by rw [eachF, hs, e], ?_, ?_⟩
    · intro r hr
      rcases List.mem_cons.1 hr with rfl | hr
      · exact ⟨s, List.mem_cons_self, hs⟩
      · obtain ⟨t, ht, q⟩ := h1 r hr
        exact ⟨t, List.mem_cons_of_mem _ ht, q⟩
    · intro t ht
      rcases List.mem_cons.1 ht with rfl | ht
      · exact ⟨_, List.mem_cons_self, hs⟩
      · obtain ⟨r, hr, q⟩ := h2 t ht
        exact ⟨r, List.mem_cons_of_mem _ hr, q⟩

/-- The segments of a line: its pairs of consecutive vertices. -/
def Segment (ps : List Pt) (a b : Pt) : Prop := ∃ k, ps[k]? = some a ∧ ps[k + 1]? = some b

theorem mem_zip {ps : List Pt} {a b : Pt} : (a, b) ∈ List.zip ps.dropLast ps.tail ↔ Segment ps a b := by
  constructor
  · intro h
    obtain ⟨k, hk⟩ := List.mem_iff_getElem?.1 h
    rw [List.getElem?_zip_eq_some] at hk
    obtain ⟨h1, h2⟩ := hk
    rw [List.getElem?_tail] at h2
    rw [List.getElem?_dropLast] at h1
    split_ifs at h1
    exact ⟨k, h1, h2⟩
  · rintro ⟨k, h1, h2⟩
    apply List.mem_iff_getElem?.2
    refine ⟨k, ?_⟩
    rw [List.getElem?_zip_eq_some, List.getElem?_tail, List.getElem?_dropLast]
    have := (List.getElem?_eq_some_iff.1 h2).1
    exact ⟨by rw [if_pos (by omega)]; exact h1, h2⟩

theorem nearestToPointF_ok (p : Pt) {ps : List Pt} (h2 : 2 ≤ ps.length) (h : ∀ a b, Segment ps a b → a ≠ b) :
    ∃ q d, nearestToPointF S p ps = .ok (some (q, d)) ∧ (∃ a b, Segment ps a b ∧ ptNearestF S p a b = .ok (q, d)) ∧
      ∀ a b, Segment ps a b → ∃ r e, ptNearestF S p a b = .ok (r, e) ∧ d ≤ e := by
  obtain ⟨rs, e, m1, m2⟩ := eachF_ok (S := S) p (List.zip ps.dropLast ps.tail) (fun s hs => h s.1 s.2 (mem_zip.1 hs))
  match ps, h2 with
  | a :: b :: l, _ =>
    obtain ⟨r, hr, -⟩ := m2 (a, b) (mem_zip.2 ⟨0, rfl, rfl⟩)
    match rs, hr with
    | r0 :: rs, _ =>
      obtain ⟨⟨q, d⟩, e1, e2, e3⟩ := minLoopF_some r0 rs
      refine ⟨q, d, by rw [nearestToPointF, e]; simp only [minLoopF, e1], ?_, ?_⟩
      · obtain ⟨s, hs, hq⟩ := m1 _ e2
        exact ⟨s.1, s.2, mem_zip.1 hs, hq⟩
      · intro a' b' hab
        obtain ⟨r', hr', hq⟩ := m2 (a', b') (mem_zip.2 hab)
        exact ⟨r'.1, r'.2, hq, e3 r' hr'⟩

/-- C174.  A line with two or more vertices and no segment without length has an answer: it is the answer of one of its segments, and hardly farther
from the query than the answer of any other one; the distance returned is that of the point returned, within seven units of rounding. -/
theorem C174_line (p : Pt) (ps : List Pt) (h2 : 2 ≤ ps.length) (h : ∀ a b, Segment ps a b → a ≠ b) :
    ∃ q d, nearestToPointF S p ps = .ok (some (q, d)) ∧ |(d : ℝ) - trueDist p q| ≤ 7 / 2 ^ 53 * trueDist p q ∧
      (∃ a b, Segment ps a b ∧ ptNearestF S p a b = .ok (q, d)) ∧
      ∀ a b, Segment ps a b → ∃ r e, ptNearestF S p a b = .ok (r, e) ∧
        (1 - 7 / 2 ^ 53) * trueDist p q ≤ (1 + 7 / 2 ^ 53) * trueDist p r := by
  obtain ⟨q, d, e, ⟨a, b, hab, hq⟩, m⟩ := nearestToPointF_ok (S := S) p h2 h
  have dist : ∀ {a b q : Pt} {d : ℚ}, ptNearestF S p a b = .ok (q, d) → |(d : ℝ) - trueDist p q| ≤ 7 / 2 ^ 53 * trueDist p q := by
    intro a b q d hq
    by_cases hne : a = b
    · rw [(C174_answers p a b).1 hne] at hq
      cases hq
    · rw [ptNearestF_ok p hne] at hq
      cases hq
      exact C169_distance S _ _
  refine ⟨q, d, e, dist hq, ⟨a, b, hab, hq⟩, ?_⟩
  intro a' b' hab'
  obtain ⟨r, f, hr, hle⟩ := m a' b' hab'
  refine ⟨r, f, hr, ?_⟩
  have k1 := (abs_le.1 (dist hq)).1
  have k2 := (abs_le.1 (dist hr)).2
  have k3 : (d : ℝ) ≤ f := by exact_mod_cast hle
  linarith

/-- C174.  When no segment of the line is narrower than 0.0001, the answer is hardly farther from the query than any point of the line. -/
theorem C174_shortest (p : Pt) (ps : List Pt) (h2 : 2 ≤ ps.length) (h : ∀ a b, Segment ps a b → Wide R a b) :
    ∃ q d, nearestToPointF S p ps = .ok (some (q, d)) ∧ ∀ a b, Segment ps a b → ∀ s, 0 ≤ s → s ≤ 1 →
      (1 - 7 / 2 ^ 53) * trueDist p q ≤
        (1 + 7 / 2 ^ 53) * (trueDist p (along a b s) + ((errUnit p a * (2 + |b.y - a.y| / |b.x - a.x|) : ℚ) : ℝ)) := by
  obtain ⟨q, d, e, -, -, m⟩ := C174_line (S := S) p ps h2 (by
    intro a b hab he
    have := wide_ne (h a b hab)
    rw [he, sub_self] at this
    exact this rfl)
  refine ⟨q, d, e, ?_⟩
  intro a b hab s s0 s1
  obtain ⟨r, f, hr, hle⟩ := m a b hab
  obtain ⟨r', f', hr', -, hb⟩ := C174_wide (S := S) p a b (h a b hab)
  rw [hr] at hr'
  cases hr'
  exact hle.trans (mul_le_mul_of_nonneg_left (hb s s0 s1) (by norm_num))

/-- C174.  The nearest point to a vertex of a line, except its last one, is that vertex, at distance zero. -/
theorem C174_vertex (ps : List Pt) (h : ∀ a b, Segment ps a b → a ≠ b) (p : Pt) (hp : Rep R p) (k : ℕ) (hk : ps[k]? = some p) (hl : k + 1 < ps.length) :
    nearestToPointF S p ps = .ok (some (p, 0)) := by
  obtain ⟨q, d, e, ⟨a, b, hab, hq⟩, m⟩ := nearestToPointF_ok (S := S) p (by omega) h
  have seg : Segment ps p ps[k + 1] := ⟨k, hk, List.getElem?_eq_getElem hl⟩
  obtain ⟨r, f, hr, hle⟩ := m _ _ seg
  rw [ptNearestF_start hp (h _ _ seg)] at hr
  cases hr
  rw [ptNearestF_ok p (h _ _ hab)] at hq
  cases hq
  obtain ⟨n1, n2⟩ := C169_zero S p (chooseF R (footF R p a b) a b)
  have z := le_antisymm hle n1
  rw [e, z]
  rw [n2] at z
  rw [← z]

/-- C174 is violated by the last vertex of a line: its distance to the line is not zero, and the point returned is not that vertex. -/
theorem C174_violated_end (S : Root double) : ∃ b q : Pt, ∃ d : ℚ, Rep double b ∧ nearestToPointF S b [⟨-3, 0⟩, b] = .ok (some (q, d)) ∧ q ≠ b ∧ 0 < d := by
  have hne : (⟨-3, 0⟩ : Pt) ≠ ⟨rnd (3 / 10), 0⟩ := by decide +kernel
  have c : chooseF double (footF double ⟨rnd (3 / 10), 0⟩ ⟨-3, 0⟩ ⟨rnd (3 / 10), 0⟩) ⟨-3, 0⟩ ⟨rnd (3 / 10), 0⟩ ≠ ⟨rnd (3 / 10), 0⟩ := by decide +kernel
  refine ⟨⟨rnd (3 / 10), 0⟩, _, distF S ⟨rnd (3 / 10), 0⟩ (chooseF double (footF double ⟨rnd (3 / 10), 0⟩ ⟨-3, 0⟩ ⟨rnd (3 / 10), 0⟩) ⟨-3, 0⟩
    ⟨rnd (3 / 10), 0⟩), ?_, ?_, c, ?_⟩
  · constructor <;> decide +kernel
  · simp only [nearestToPointF, List.dropLast, List.tail, List.zip_cons_cons, List.zip_nil_left, eachF]
    rw [ptNearestF_ok _ hne]
    rfl
  · obtain ⟨n1, n2⟩ := C169_zero S ⟨rnd (3 / 10), 0⟩ (chooseF double (footF double ⟨rnd (3 / 10), 0⟩ ⟨-3, 0⟩ ⟨rnd (3 / 10), 0⟩) ⟨-3, 0⟩ ⟨rnd (3 / 10), 0⟩)
    exact lt_of_le_of_ne n1 (fun z => c (n2.1 z.symm).symm)

/-- C174 is violated by short horizontal segments: the point returned is the foot of the perpendicular, however far from the segment. -/
theorem C174_violated_short (S : Root double) : ptNearestF S ⟨5, 0⟩ ⟨0, 0⟩ ⟨1 / 2 ^ 15, 0⟩ = .ok (⟨5, 0⟩, 0) := by
  have hne : (⟨0, 0⟩ : Pt) ≠ ⟨1 / 2 ^ 15, 0⟩ := by decide +kernel
  have c : chooseF double (footF double ⟨5, 0⟩ ⟨0, 0⟩ ⟨1 / 2 ^ 15, 0⟩) ⟨0, 0⟩ ⟨1 / 2 ^ 15, 0⟩ = ⟨5, 0⟩ := by decide +kernel
  rw [ptNearestF_ok _ hne, c, (C169_zero S _ _).2.2 rfl]

/-! ### Examples -/

example : Wide double ⟨0, 0⟩ ⟨4, 3⟩ ∧ ¬ Wide double ⟨0, 0⟩ ⟨0, 3⟩ ∧ Rep double ⟨1 / 2, 3⟩ := by
  refine ⟨?_, ?_, ?_, ?_⟩
  · show double.fl _ ≤ _; decide +kernel
  · show ¬ double.fl _ ≤ _; decide +kernel
  all_goals decide +kernel

example : footF double ⟨5, 5⟩ ⟨0, 0⟩ ⟨8, 0⟩ = ⟨5, 0⟩ ∧ chooseF double ⟨5, 0⟩ ⟨0, 0⟩ ⟨4, 0⟩ = ⟨4, 0⟩ := by decide +kernel

example (S : Root double) : nearestToPointF S ⟨4, 3⟩ [⟨0, 0⟩, ⟨4, 3⟩, ⟨9, 9⟩] = .ok (some (⟨4, 3⟩, 0)) := by
  refine C174_vertex _ ?_ _ ⟨by decide +kernel, by decide +kernel⟩ 1 rfl (by decide)
  rintro a b ⟨k, h1, h2⟩
  match k with
  | 0 => cases h1; cases h2; decide +kernel
  | 1 => cases h1; cases h2; decide +kernel
  | k + 2 => cases h2

end Karta.FloatNearest
