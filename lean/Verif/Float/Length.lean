import Verif.Float.Area
import Verif.Float.Units
import Mathlib.Analysis.Real.Sqrt

/-!
Model of planar distances and lengths (`/repo/karta/vector/geometry.py` 260-313, 571-591, 646-665, 875-888; `vectorgeo.pyx` 178-194) with
rounded arithmetic, and property C169.
-/

namespace Karta.Float
open Karta Karta.Vec

variable (R : Rounding)

/-- Assumptions on the square root of the C library: it returns a floating-point number, with an error of at most two units of relative
rounding, and exactly if the root is a floating-point number.  (A correctly rounded root does better.) -/
structure Root where
  rt : ℚ → ℚ
  err : ∀ x : ℚ, 0 ≤ x → |(rt x : ℝ) - Real.sqrt (x : ℝ)| ≤ 2 / 2 ^ 53 * Real.sqrt (x : ℝ)
  rep : ∀ x : ℚ, R.fl (rt x) = rt x
  square : ∀ x : ℚ, 0 ≤ x → R.fl x = x → rt (x * x) = x

variable {R} (S : Root R)

/-- `Point.distance` in a planar system (geometry.py 299-302), also one step of the loop of `length` (vectorgeo.pyx 190).  Simplification: the
compiler is assumed not to fuse products and sums. -/
def distF (p q : Pt) : ℚ :=
  S.rt (R.fl (R.fl (R.fl (q.x - p.x) * R.fl (q.x - p.x)) + R.fl (R.fl (q.y - p.y) * R.fl (q.y - p.y))))

/-- The loop of `length` (vectorgeo.pyx 187-193). -/
def lengthLoopF : Pt → List Pt → ℚ → ℚ
  | _, [], d => d
  | p, q :: r, d => lengthLoopF q r (R.fl (d + distF S p q))

/-- `Line.length` (geometry.py 646-665; vectorgeo.pyx 178-194). -/
def lengthF : List Pt → Except Err ℚ
  | [] => .error .indexError
  | p :: r => .ok (lengthLoopF S p r 0)

/-- The loop of `cumulength` (geometry.py 884-887); `d` is the last number appended. -/
def cumulengthLoopF : Pt → List Pt → ℚ → List ℚ
  | _, [], _ => []
  | p, q :: r, d => R.fl (distF S p q + d) :: cumulengthLoopF q r (R.fl (distF S p q + d))

/-- `Line.cumulength` (geometry.py 875-888). -/
def cumulengthF : List Pt → Except Err (List ℚ)
  | [] => .error .indexError
  | p :: r => .ok (0 :: cumulengthLoopF S p r 0)

/-- `np.argmin` of a non-empty list: the first position of the least number.  The state is the position reached, the best position and its
value. -/
def argminLoop : List ℚ → Nat → Nat → ℚ → Nat
  | [], _, best, _ => best
  | d :: ds, k, best, v => if d < v then argminLoop ds (k + 1) k d else argminLoop ds (k + 1) best v

/-- `nearest_vertex_to` (geometry.py 571-591) in a planar system. -/
def nearestF (vs : List Pt) (p : Pt) : Except Err Nat :=
  match vs with
  | [] => .error .valueError
  | v :: r => .ok (argminLoop (r.map (distF S p)) 1 0 (distF S p v))

/-! ### Specification -/

/-- The distance of two points. -/
noncomputable def trueDist (p q : Pt) : ℝ := Real.sqrt (((q.x - p.x) ^ 2 + (q.y - p.y) ^ 2 : ℚ) : ℝ)

/-- The length of a line. -/
noncomputable def trueLength : List Pt → ℝ
  | p :: q :: r => trueDist p q + trueLength (q :: r)
  | _ => 0

/-- `es` are the distances of consecutive vertices, all of them rational. -/
def Steps : List Pt → List ℚ → Prop
  | p :: q :: r, e :: es => 0 ≤ e ∧ e ^ 2 = (q.x - p.x) ^ 2 + (q.y - p.y) ^ 2 ∧ Steps (q :: r) es
  | [_], [] => True
  | _, _ => False

/-! ### Lemmas -/

variable {S}

theorem trueDist_nonneg (p q : Pt) : 0 ≤ trueDist p q := Real.sqrt_nonneg _

theorem trueLength_nonneg : ∀ vs : List Pt, 0 ≤ trueLength vs
  | [] => le_rfl
  | [_] => le_rfl
  | p :: q :: r => add_nonneg (trueDist_nonneg p q) (trueLength_nonneg (q :: r))

/-- The sum of squares before the root. -/
theorem squares_growth (p q : Pt) :
    |R.fl (R.fl (R.fl (q.x - p.x) * R.fl (q.x - p.x)) + R.fl (R.fl (q.y - p.y) * R.fl (q.y - p.y))) - ((q.x - p.x) ^ 2 + (q.y - p.y) ^ 2)|
      ≤ growth 4 * ((q.x - p.x) ^ 2 + (q.y - p.y) ^ 2) := by
  have sq : ∀ a : ℚ, |R.fl (R.fl a * R.fl a) - a ^ 2| ≤ growth 3 * a ^ 2 ∧ |a ^ 2| ≤ a ^ 2 := by
    intro a
    have h : |R.fl a - a| ≤ growth 1 * |a| := fl_growth exact_growth le_rfl
    obtain ⟨m1, m2⟩ := mul_growth h le_rfl h le_rfl
    have f := fl_growth (R := R) m1 m2
    rw [abs_mul_abs_self] at f
    exact ⟨by rw [pow_two]; exact f, le_of_eq (abs_of_nonneg (sq_nonneg a))⟩
  obtain ⟨a1, a2⟩ := sq (q.x - p.x)
  obtain ⟨b1, b2⟩ := sq (q.y - p.y)
  obtain ⟨s1, s2⟩ := add_growth a1 a2 b1 b2
  exact fl_growth (R := R) s1 s2

/-- Roots of numbers that are close are close. -/
theorem sqrt_close {A B g : ℝ} (hA : 0 ≤ A) (hB : 0 ≤ B) (hg : 0 ≤ g) (h : |A - B| ≤ g * B) : |Real.sqrt A - Real.sqrt B| ≤ g * Real.sqrt B := by
  rcases hB.eq_or_lt with rfl | hB
  · rw [mul_zero] at h
    have : A - 0 = 0 := abs_eq_zero.1 (le_antisymm h (abs_nonneg _))
    rw [sub_zero] at this
    subst this; simp
  · have sB : 0 < Real.sqrt B := Real.sqrt_pos.2 hB
    have sA : 0 ≤ Real.sqrt A := Real.sqrt_nonneg A
    have e : (Real.sqrt A - Real.sqrt B) * (Real.sqrt A + Real.sqrt B) = A - B := by
      have a := Real.mul_self_sqrt hA
      have b := Real.mul_self_sqrt hB.le
      nlinarith
    have e' : |Real.sqrt A - Real.sqrt B| * (Real.sqrt A + Real.sqrt B) = |A - B| := by
      rw [← e, abs_mul, abs_of_pos (by linarith : 0 < Real.sqrt A + Real.sqrt B)]
    have b := Real.mul_self_sqrt hB.le
    have k : |Real.sqrt A - Real.sqrt B| * Real.sqrt B ≤ g * Real.sqrt B * Real.sqrt B := by
      calc |Real.sqrt A - Real.sqrt B| * Real.sqrt B ≤ |Real.sqrt A - Real.sqrt B| * (Real.sqrt A + Real.sqrt B) :=
            mul_le_mul_of_nonneg_left (by linarith) (abs_nonneg _)
        _ = |A - B| := e'
        _ ≤ g * B := h
        _ = g * Real.sqrt B * Real.sqrt B := by rw [mul_assoc, b]
    exact le_of_mul_le_mul_right k sB

theorem sum_nonneg (p q : Pt) :
    0 ≤ R.fl (R.fl (R.fl (q.x - p.x) * R.fl (q.x - p.x)) + R.fl (R.fl (q.y - p.y) * R.fl (q.y - p.y))) :=
  R.nonneg (add_nonneg (R.nonneg (mul_self_nonneg _)) (R.nonneg (mul_self_nonneg _)))

theorem distF_growth (p q : Pt) : |(distF S p q : ℝ) - trueDist p q| ≤ (growth 6 : ℝ) * trueDist p q := by
  set A : ℚ := R.fl (R.fl (R.fl (q.x - p.x) * R.fl (q.x - p.x)) + R.fl (R.fl (q.y - p.y) * R.fl (q.y - p.y))) with hA
  set B : ℚ := (q.x - p.x) ^ 2 + (q.y - p.y) ^ 2 with hB
  have a0 : 0 ≤ A := sum_nonneg p q
  have b0 : 0 ≤ B := by positivity
  have h := squares_growth (R := R) p q
  rw [← hA, ← hB] at h
  have h' : |(A : ℝ) - B| ≤ (growth 4 : ℝ) * B := by exact_mod_cast h
  have g4 : (0 : ℝ) ≤ (growth 4 : ℝ) := by exact_mod_cast growth_nonneg 4
  have c := sqrt_close (by exact_mod_cast a0) (by exact_mod_cast b0) g4 h'
  have e := S.err A a0
  have t : |(S.rt A : ℝ) - Real.sqrt B| ≤ |(S.rt A : ℝ) - Real.sqrt A| + |Real.sqrt A - Real.sqrt B| := by
    have := abs_add_le ((S.rt A : ℝ) - Real.sqrt A) (Real.sqrt A - Real.sqrt B)
    rwa [sub_add_sub_cancel] at this
  have r : Real.sqrt A ≤ (1 + (growth 4 : ℝ)) * Real.sqrt B := by
    have := (abs_le.1 c).2
    linarith
  have sB : 0 ≤ Real.sqrt (B : ℝ) := Real.sqrt_nonneg _
  have num : (2 : ℝ) / 2 ^ 53 * (1 + (growth 4 : ℝ)) + (growth 4 : ℝ) ≤ (growth 6 : ℝ) := by
    have : (2 : ℚ) / 2 ^ 53 * (1 + growth 4) + growth 4 ≤ growth 6 := by unfold growth; norm_num
    have := (Rat.cast_le (K := ℝ)).2 this
    push_cast at this
    exact this
  have e2 : |(S.rt A : ℝ) - Real.sqrt B| ≤ (growth 6 : ℝ) * Real.sqrt B := by
    have k : (2 : ℝ) / 2 ^ 53 * Real.sqrt A ≤ 2 / 2 ^ 53 * ((1 + (growth 4 : ℝ)) * Real.sqrt B) :=
      mul_le_mul_of_nonneg_left r (by norm_num)
    nlinarith [mul_le_mul_of_nonneg_right num sB]
  exact e2

/-- One more rounding, over the reals. -/
theorem fl_growth_real {n : ℕ} {X : ℚ} {x M : ℝ} (h : |(X : ℝ) - x| ≤ (growth n : ℝ) * M) (hx : |x| ≤ M) :
    |(R.fl X : ℝ) - x| ≤ (growth (n + 1) : ℝ) * M := by
  have e : |(R.fl X : ℝ) - X| ≤ 1 / 2 ^ 53 * |(X : ℝ)| := by
    have := (Rat.cast_le (K := ℝ)).2 (R.err X)
    push_cast at this
    exact this
  have t : |(R.fl X : ℝ) - x| ≤ |(R.fl X : ℝ) - X| + |(X : ℝ) - x| := by
    have := abs_add_le ((R.fl X : ℝ) - X) ((X : ℝ) - x)
    rwa [sub_add_sub_cancel] at this
  have a : |(X : ℝ)| ≤ |(X : ℝ) - x| + |x| := by
    have := abs_add_le ((X : ℝ) - x) x
    rwa [sub_add_cancel] at this
  have g : (growth (n + 1) : ℝ) = (1 + 1 / 2 ^ 53) * (growth n : ℝ) + 1 / 2 ^ 53 := by
    have := congrArg (fun x : ℚ => (x : ℝ)) (growth_succ n)
    push_cast at this
    exact this
  rw [g]
  have u : (0 : ℝ) ≤ 1 / 2 ^ 53 := by norm_num
  nlinarith [mul_le_mul_of_nonneg_left a u, mul_le_mul_of_nonneg_left h u, mul_le_mul_of_nonneg_left hx u]

theorem growth_mono_real {m n : ℕ} (h : m ≤ n) : (growth m : ℝ) ≤ (growth n : ℝ) := by exact_mod_cast growth_mono h

theorem growth_nonneg_real (n : ℕ) : (0 : ℝ) ≤ (growth n : ℝ) := by exact_mod_cast growth_nonneg n

theorem lengthLoopF_growth : ∀ (r : List Pt) (p : Pt) (d : ℚ) (x : ℝ) (n : ℕ), 6 ≤ n → 0 ≤ x → |(d : ℝ) - x| ≤ (growth n : ℝ) * x →
    |(lengthLoopF S p r d : ℝ) - (x + trueLength (p :: r))| ≤ (growth (n + r.length) : ℝ) * (x + trueLength (p :: r))
  | [], p, d, x, n, _, _, h => by simpa [lengthLoopF, trueLength] using h
  | q :: r, p, d, x, n, hn, hx, h => by
    have hd := distF_growth (S := S) p q
    have d0 := trueDist_nonneg p q
    have hs : |((d + distF S p q : ℚ) : ℝ) - (x + trueDist p q)| ≤ (growth n : ℝ) * (x + trueDist p q) := by
      have t := abs_add_le ((d : ℝ) - x) ((distF S p q : ℝ) - trueDist p q)
      have e : ((d + distF S p q : ℚ) : ℝ) - (x + trueDist p q) = ((d : ℝ) - x) + ((distF S p q : ℝ) - trueDist p q) := by push_cast; ring
      rw [e, mul_add]
      have := mul_le_mul_of_nonneg_right (growth_mono_real hn) d0
      linarith
    have f := fl_growth_real (R := R) hs (by rw [abs_of_nonneg (add_nonneg hx d0)])
    have ih := lengthLoopF_growth r q _ _ (n + 1) (by omega) (add_nonneg hx d0) f
    rw [lengthLoopF, trueLength, ← add_assoc, List.length_cons, show n + (r.length + 1) = n + 1 + r.length by omega]
    exact ih

theorem rt_pos {x : ℚ} (h : 0 < x) : 0 < S.rt x := by
  have e := (abs_le.1 (S.err x h.le)).1
  have s : 0 < Real.sqrt (x : ℝ) := Real.sqrt_pos.2 (by exact_mod_cast h)
  have : (0 : ℝ) < S.rt x := by nlinarith
  exact_mod_cast this

theorem rt_zero : S.rt 0 = 0 := by
  have := S.square 0 le_rfl R.zero
  simpa using this

theorem rt_nonneg {x : ℚ} (h : 0 ≤ x) : 0 ≤ S.rt x := by
  rcases h.eq_or_lt with rfl | h
  · rw [rt_zero]
  · exact (rt_pos h).le

theorem distF_nonneg (p q : Pt) : 0 ≤ distF S p q := rt_nonneg (sum_nonneg p q)

theorem lengthLoopF_le : ∀ (r : List Pt) (p : Pt) (d : ℚ), R.fl d = d → d ≤ lengthLoopF S p r d
  | [], _, _, _ => le_rfl
  | q :: r, p, d, hd => by
    rw [lengthLoopF]
    refine le_trans ?_ (lengthLoopF_le r q _ (R.idem _))
    have := R.mono (by linarith [distF_nonneg (S := S) p q] : d ≤ d + distF S p q)
    rwa [hd] at this

theorem lengthLoopF_append : ∀ (r s : List Pt) (p : Pt) (d : ℚ), R.fl d = d → lengthLoopF S p r d ≤ lengthLoopF S p (r ++ s) d
  | [], s, p, d, hd => lengthLoopF_le s p d hd
  | q :: r, s, p, d, _ => by
    rw [List.cons_append, lengthLoopF, lengthLoopF]
    exact lengthLoopF_append r s q _ (R.idem _)

theorem cumulengthLoopF_last : ∀ (r : List Pt) (p : Pt) (d : ℚ), (d :: cumulengthLoopF S p r d).getLast? = some (lengthLoopF S p r d)
  | [], _, _ => rfl
  | q :: r, p, d => by
    rw [cumulengthLoopF, lengthLoopF, List.getLast?_cons_cons, add_comm d]
    exact cumulengthLoopF_last r q _

theorem argminLoop_spec : ∀ (ds : List ℚ) (k best : Nat) (v : ℚ) (all : List ℚ), all.drop k = ds → all[best]? = some v → best < k →
    (∀ m w, m < k → all[m]? = some w → v ≤ w ∧ (m < best → v < w)) →
    ∃ w, all[argminLoop ds k best v]? = some w ∧ ∀ m u, all[m]? = some u → w ≤ u ∧ (m < argminLoop ds k best v → w < u)
  | [], k, best, v, all, hd, hb, hk, ha => by
    refine ⟨v, hb, fun m u hm => ha m u ?_ hm⟩
    have h1 := List.drop_eq_nil_iff.1 hd
    have h2 := (List.getElem?_eq_some_iff.1 hm).1
    omega
  | d :: ds, k, best, v, all, hd, hb, hk, ha => by
    have hk' : all[k]? = some d := by
      have := congrArg (fun l => l[0]?) hd
      simpa using this
    have hd' : all.drop (k + 1) = ds := by
      have := congrArg List.tail hd
      simpa using this
    rw [argminLoop]
    by_cases h : d < v
    · rw [if_pos h]
      refine argminLoop_spec ds (k + 1) k d all hd' hk' (by omega) fun m w hm hw => ?_
      by_cases e : m = k
      · subst e; rw [hk'] at hw; cases hw; exact ⟨le_rfl, fun x => absurd x (lt_irrefl _)⟩
      · have := (ha m w (by omega) hw).1
        exact ⟨by linarith, fun _ => by linarith⟩
    · rw [if_neg h]
      refine argminLoop_spec ds (k + 1) best v all hd' hb (by omega) fun m w hm hw => ?_
      by_cases e : m = k
      · subst e; rw [hk'] at hw; cases hw; exact ⟨by linarith, fun x => absurd x (by omega)⟩
      · exact ha m w (by omega) hw

theorem distF_exact {p q : Pt} {k : ℤ} {e : ℚ} (hp : InUnits k (2 ^ 25) p.x ∧ InUnits k (2 ^ 25) p.y)
    (hq : InUnits k (2 ^ 25) q.x ∧ InUnits k (2 ^ 25) q.y) (he : InUnits k (2 ^ 26) e) (h0 : 0 ≤ e)
    (h : e ^ 2 = (q.x - p.x) ^ 2 + (q.y - p.y) ^ 2) : distF S p q = e := by
  have dx := hq.1.sub hp.1
  have dy := hq.2.sub hp.2
  have sx := dx.mul dx
  have sy := dy.mul dy
  unfold distF
  rw [dx.exact (R := R) (by norm_num), dy.exact (R := R) (by norm_num), sx.exact (R := R) (by norm_num), sy.exact (R := R) (by norm_num),
    (sx.add sy).exact (R := R) (by norm_num)]
  have : (q.x - p.x) * (q.x - p.x) + (q.y - p.y) * (q.y - p.y) = e * e := by linarith
  rw [this]
  exact S.square e h0 (he.exact R (by norm_num))

theorem lengthLoopF_exact {k : ℤ} : ∀ (r : List Pt) (p : Pt) (es : List ℚ) (d : ℚ) (B : ℤ),
    (∀ v ∈ p :: r, InUnits k (2 ^ 25) v.x ∧ InUnits k (2 ^ 25) v.y) → (∀ e ∈ es, InUnits k (2 ^ 26) e) → Steps (p :: r) es →
    InUnits k B d → 0 ≤ B → B + 2 ^ 26 * es.length ≤ 2 ^ 53 → lengthLoopF S p r d = d + es.sum
  | [], p, es, d, B, _, _, hs, _, _, _ => by
    cases es with
    | nil => simp [lengthLoopF]
    | cons e es => exact absurd hs (by simp [Steps])
  | q :: r, p, [], d, B, _, _, hs, _, _, _ => absurd hs (by simp [Steps])
  | q :: r, p, e :: es, d, B, hv, he, hs, hd, h0, hB => by
    obtain ⟨s1, s2, s3⟩ := hs
    have h1 := he e (by simp)
    rw [List.length_cons] at hB
    push_cast at hB
    have h2 := hd.add h1
    rw [lengthLoopF, distF_exact (hv p (by simp)) (hv q (by simp)) h1 s1 s2, h2.exact (R := R) (by nlinarith [es.length.cast_nonneg (α := ℤ)]),
      lengthLoopF_exact r q es _ _ (fun v m => hv v (by simp at m ⊢; tauto)) (fun x m => he x (by simp [m])) s3 h2 (by linarith) (by linarith),
      List.sum_cons, add_assoc]

/-! ### C169 -/

/-- C169.  A distance has a relative error of at most seven units of rounding. -/
theorem C169_distance (S : Root R) (p q : Pt) : |(distF S p q : ℝ) - trueDist p q| ≤ 7 / 2 ^ 53 * trueDist p q := by
  refine (distF_growth p q).trans (mul_le_mul_of_nonneg_right ?_ (trueDist_nonneg p q))
  have : growth 6 ≤ 7 / 2 ^ 53 := by unfold growth; norm_num
  have := (Rat.cast_le (K := ℝ)).2 this
  push_cast at this
  exact this

/-- C169.  No distance is negative, and only that of a point to itself is zero. -/
theorem C169_zero (S : Root R) (p q : Pt) : 0 ≤ distF S p q ∧ (distF S p q = 0 ↔ p = q) := by
  refine ⟨distF_nonneg p q, ?_, ?_⟩
  · intro h
    by_contra hne
    have hpos : 0 < R.fl (R.fl (R.fl (q.x - p.x) * R.fl (q.x - p.x)) + R.fl (R.fl (q.y - p.y) * R.fl (q.y - p.y))) := by
      apply R.pos
      by_cases hx : q.x = p.x
      · have hy : q.y - p.y ≠ 0 := by
          intro hy
          apply hne
          cases p; cases q
          simp only at hx hy
          rw [hx, show _ = _ from sub_eq_zero.1 hy]
        have : R.fl (q.y - p.y) ≠ 0 := fun e => hy (R.eq_zero.1 e)
        exact add_pos_of_nonneg_of_pos (R.nonneg (mul_self_nonneg _)) (R.pos (mul_self_pos.2 this))
      · have : R.fl (q.x - p.x) ≠ 0 := fun e => sub_ne_zero.2 hx (R.eq_zero.1 e)
        exact add_pos_of_pos_of_nonneg (R.pos (mul_self_pos.2 this)) (R.nonneg (mul_self_nonneg _))
    exact (rt_pos (S := S) hpos).ne' h
  · rintro rfl
    unfold distF
    simp only [sub_self, R.zero, mul_zero, add_zero]
    exact rt_zero

/-- C169.  The distance is the same both ways, as far as rounding treats both signs alike. -/
theorem C169_symmetric (S : Root R) (hodd : ∀ x, R.fl (-x) = -R.fl x) (p q : Pt) : distF S p q = distF S q p := by
  unfold distF
  have a : R.fl (q.x - p.x) = -R.fl (p.x - q.x) := by rw [← hodd, neg_sub]
  have b : R.fl (q.y - p.y) = -R.fl (p.y - q.y) := by rw [← hodd, neg_sub]
  rw [a, b, neg_mul_neg, neg_mul_neg]

/-- C169.  The length of a line of `n` vertices has a relative error of at most `(1 + 2 ^ (-53)) ^ (n + 6) - 1`. -/
theorem C169_length (S : Root R) (vs : List Pt) (h : vs ≠ []) :
    ∃ x, lengthF S vs = .ok x ∧ |(x : ℝ) - trueLength vs| ≤ ((1 + 1 / 2 ^ 53) ^ (vs.length + 6) - 1) * trueLength vs := by
  obtain ⟨p, r, rfl⟩ := List.exists_cons_of_ne_nil h
  refine ⟨_, rfl, ?_⟩
  have k := lengthLoopF_growth (S := S) r p 0 0 6 le_rfl le_rfl (by simp)
  rw [zero_add] at k
  refine k.trans (mul_le_mul_of_nonneg_right ?_ (trueLength_nonneg _))
  have g := growth_mono_real (m := 6 + r.length) (n := (p :: r).length + 6) (by simp; omega)
  refine g.trans (le_of_eq ?_)
  unfold growth; push_cast; rfl

/-- C169.  The last cumulative length is the length, to the last bit. -/
theorem C169_cumulength (S : Root R) (vs : List Pt) (h : vs ≠ []) :
    ∃ l x, cumulengthF S vs = .ok l ∧ lengthF S vs = .ok x ∧ l.getLast? = some x := by
  obtain ⟨p, r, rfl⟩ := List.exists_cons_of_ne_nil h
  exact ⟨_, _, rfl, rfl, cumulengthLoopF_last r p 0⟩

/-- C169.  A line does not get shorter by more vertices at its end. -/
theorem C169_extend (S : Root R) (vs ws : List Pt) (h : vs ≠ []) : ∃ x y, lengthF S vs = .ok x ∧ lengthF S (vs ++ ws) = .ok y ∧ x ≤ y := by
  obtain ⟨p, r, rfl⟩ := List.exists_cons_of_ne_nil h
  exact ⟨_, _, rfl, rfl, lengthLoopF_append r ws p 0 R.zero⟩

/-- C169.  The vertex found as the nearest one is not farther than any other vertex, but for a relative error of sixteen units of rounding; it is
the first of those at the least computed distance. -/
theorem C169_nearest (S : Root R) (vs : List Pt) (p : Pt) (h : vs ≠ []) :
    ∃ k v, nearestF S vs p = .ok k ∧ vs[k]? = some v ∧ (∀ w ∈ vs, trueDist p v ≤ (1 + 16 / 2 ^ 53) * trueDist p w) ∧
      ∀ m w, m < k → vs[m]? = some w → distF S p v < distF S p w := by
  obtain ⟨a, r, rfl⟩ := List.exists_cons_of_ne_nil h
  obtain ⟨w, h1, h2⟩ := argminLoop_spec (r.map (distF S p)) 1 0 (distF S p a) ((a :: r).map (distF S p)) (by simp) (by simp) (by omega)
    (by
      intro m w hm hw
      obtain rfl : m = 0 := by omega
      simp only [List.map_cons, List.getElem?_cons_zero, Option.some.injEq] at hw
      exact ⟨hw.le, fun k => absurd k (by omega)⟩)
  rw [List.getElem?_map, Option.map_eq_some_iff] at h1
  obtain ⟨v, hv, rfl⟩ := h1
  refine ⟨_, v, rfl, hv, ?_, ?_⟩
  · intro u hu
    obtain ⟨m, hm⟩ := List.getElem?_of_mem hu
    have le := (h2 m (distF S p u) (by rw [List.getElem?_map, hm]; rfl)).1
    have le' : (distF S p v : ℝ) ≤ distF S p u := by exact_mod_cast le
    have a1 := (abs_le.1 (C169_distance S p v)).1
    have a2 := (abs_le.1 (C169_distance S p u)).2
    have d1 := trueDist_nonneg p v
    have d2 := trueDist_nonneg p u
    nlinarith
  · intro m w hm hw
    exact (h2 m _ (by rw [List.getElem?_map, hw]; rfl)).2 hm

/-- C169.  Lines whose vertices have whole coordinates (in units of a power of two, at most `2 ^ 25` of them) and whose sides have whole lengths
have no error at all. -/
theorem C169_exact (S : Root R) (k : ℤ) (vs : List Pt) (es : List ℚ) (hv : ∀ v ∈ vs, InUnits k (2 ^ 25) v.x ∧ InUnits k (2 ^ 25) v.y)
    (he : ∀ e ∈ es, InUnits k (2 ^ 26) e) (hs : Steps vs es) (hn : es.length ≤ 2 ^ 27) : lengthF S vs = .ok es.sum := by
  cases vs with
  | nil => exact absurd hs (by cases es <;> simp [Steps])
  | cons p r =>
    have := lengthLoopF_exact (S := S) r p es 0 0 hv he hs ⟨0, by simp, by simp⟩ le_rfl (by
      have : (es.length : ℤ) ≤ 2 ^ 27 := by exact_mod_cast hn
      linarith)
    rw [lengthF, this, zero_add]

/-! ### A square root that meets the assumptions -/

theorem root_exists (x : ℚ) (h : 0 ≤ x) :
    ∃ q : ℚ, 0 ≤ q ∧ |(q : ℝ) - Real.sqrt x| ≤ 1 / 2 ^ 54 * Real.sqrt x ∧ ∀ y : ℚ, 0 ≤ y → y * y = x → q = y := by
  by_cases hy : ∃ y : ℚ, 0 ≤ y ∧ y * y = x
  · obtain ⟨y, y0, rfl⟩ := hy
    have y0' : (0 : ℝ) ≤ y := by exact_mod_cast y0
    have e : Real.sqrt ((y * y : ℚ) : ℝ) = y := by rw [Rat.cast_mul]; exact Real.sqrt_mul_self y0'
    refine ⟨y, y0, ?_, fun z z0 hz => ?_⟩
    · rw [e, sub_self, abs_zero]; positivity
    · exact (mul_self_inj y0 z0).1 hz.symm
  · have hx : 0 < x := by
      rcases h.eq_or_lt with rfl | h
      · exact absurd ⟨0, le_rfl, by simp⟩ hy
      · exact h
    have s : 0 < Real.sqrt (x : ℝ) := Real.sqrt_pos.2 (by exact_mod_cast hx)
    obtain ⟨q, h1, h2⟩ := exists_rat_btwn (show Real.sqrt (x : ℝ) - 1 / 2 ^ 54 * Real.sqrt x < Real.sqrt x by nlinarith)
    refine ⟨q, ?_, ?_, fun y y0 e => absurd ⟨y, y0, e⟩ hy⟩
    · have : (0 : ℝ) ≤ q := by nlinarith
      exact_mod_cast this
    · rw [abs_le]; constructor <;> nlinarith

open Classical in
/-- A square root that meets the assumptions: a rational number close to the root, rounded. -/
noncomputable def someRoot (R : Rounding) : Root R where
  rt x := if h : 0 ≤ x then R.fl (Classical.choose (root_exists x h)) else 0
  err x h := by
    rw [dif_pos h]
    obtain ⟨q0, hq, -⟩ := Classical.choose_spec (root_exists x h)
    set q := Classical.choose (root_exists x h)
    have e := (Rat.cast_le (K := ℝ)).2 (R.err q)
    push_cast at e
    have q0' : (0 : ℝ) ≤ q := by exact_mod_cast q0
    rw [abs_of_nonneg q0'] at e
    have s := Real.sqrt_nonneg (x : ℝ)
    have e1 := abs_le.1 e
    have e2 := abs_le.1 hq
    rw [abs_le]
    constructor <;> nlinarith
  rep x := by
    split
    · exact R.idem _
    · exact R.zero
  square x h hx := by
    rw [dif_pos (mul_self_nonneg x)]
    obtain ⟨-, -, hq⟩ := Classical.choose_spec (root_exists (x * x) (mul_self_nonneg x))
    rw [hq x h rfl, hx]

/-! ### Where rounding shows -/

theorem root_of (S : Root double) (x : ℚ) (h : 0 ≤ x) (hx : rnd x = x) {y : ℚ} (e : y = x * x) : S.rt y = x := by
  rw [e]; exact S.square x h hx

theorem unit_step (S : Root double) (a b : ℚ) (h : b - a = 1 ∨ b - a = -1) (y : ℚ) : distF S ⟨a, y⟩ ⟨b, y⟩ = 1 := by
  have h1 : double.fl 1 = 1 := by simpa using double.int 1 (by norm_num)
  have h2 : double.fl (-1) = -1 := by simpa using double.int (-1) (by norm_num)
  unfold distF
  rcases h with h | h <;> simp only [h, h1, h2, sub_self, double.zero, mul_zero, add_zero, mul_one, mul_neg, neg_neg] <;>
    exact root_of S 1 (by norm_num) h1 (by norm_num)

theorem far_step (S : Root double) (h : (0 : ℚ) ≤ 2 ^ 53) : distF S ⟨-2 ^ 53, 0⟩ ⟨0, 0⟩ = 2 ^ 53 ∧ distF S ⟨0, 0⟩ ⟨-2 ^ 53, 0⟩ = 2 ^ 53 := by
  have a : rnd (2 ^ 53) = 2 ^ 53 := by decide +kernel
  constructor <;> refine root_of S (2 ^ 53) h a ?_ <;> decide +kernel

/-- C169 cannot be stated with equal lengths of a line and its reverse: the rounding of the sum depends on the order. -/
theorem C169_violated_reverse (S : Root double) :
    lengthF S [⟨-2 ^ 53, 0⟩, ⟨0, 0⟩, ⟨1, 0⟩, ⟨2, 0⟩] = .ok (2 ^ 53) ∧
      lengthF S [⟨2, 0⟩, ⟨1, 0⟩, ⟨0, 0⟩, ⟨-2 ^ 53, 0⟩] = .ok (2 ^ 53 + 2) := by
  obtain ⟨f1, f2⟩ := far_step S (by norm_num)
  have e1 : double.fl (double.fl (double.fl (0 + 2 ^ 53) + 1) + 1) = 2 ^ 53 := by decide +kernel
  have e2 : double.fl (double.fl (double.fl (0 + 1) + 1) + 2 ^ 53) = 2 ^ 53 + 2 := by decide +kernel
  constructor
  · simp only [lengthF, lengthLoopF]
    rw [f1, unit_step S 0 1 (by norm_num), unit_step S 1 2 (by norm_num), e1]
  · simp only [lengthF, lengthLoopF]
    rw [f2, unit_step S 1 0 (by norm_num), unit_step S 2 1 (by norm_num), e2]

/-- C169 cannot be stated with a straight way that is never longer than a way with more vertices: here the line by way of more vertices has the
smaller length. -/
theorem C169_violated_detour (S : Root double) :
    ∃ x, lengthF S [⟨-2 ^ 53, 0⟩, ⟨0, 0⟩, ⟨1, 0⟩, ⟨2, 0⟩, ⟨3, 0⟩, ⟨4, 0⟩, ⟨5, 0⟩, ⟨6, 0⟩, ⟨7, 0⟩, ⟨8, 0⟩] = .ok x ∧
      x < distF S ⟨-2 ^ 53, 0⟩ ⟨8, 0⟩ := by
  obtain ⟨f1, -⟩ := far_step S (by norm_num)
  have e0 : double.fl (0 + 2 ^ 53) = 2 ^ 53 := by decide +kernel
  have e1 : double.fl (2 ^ 53 + 1) = 2 ^ 53 := by decide +kernel
  refine ⟨2 ^ 53, ?_, ?_⟩
  · simp only [lengthF, lengthLoopF]
    rw [f1, unit_step S 0 1 (by norm_num), unit_step S 1 2 (by norm_num), unit_step S 2 3 (by norm_num), unit_step S 3 4 (by norm_num),
      unit_step S 4 5 (by norm_num), unit_step S 5 6 (by norm_num), unit_step S 6 7 (by norm_num), unit_step S 7 8 (by norm_num), e0, e1, e1, e1, e1,
      e1, e1, e1, e1]
  · have h := (abs_le.1 (C169_distance S ⟨-2 ^ 53, 0⟩ ⟨8, 0⟩)).1
    have t : trueDist ⟨-2 ^ 53, 0⟩ ⟨8, 0⟩ = 2 ^ 53 + 8 := by
      unfold trueDist
      rw [show (((8 : ℚ) - -2 ^ 53) ^ 2 + (0 - 0) ^ 2 : ℚ) = ((2 ^ 53 + 8) * (2 ^ 53 + 8) : ℚ) by norm_num]
      push_cast
      exact Real.sqrt_mul_self (by norm_num)
    rw [t] at h
    have : ((2 ^ 53 : ℚ) : ℝ) < distF S ⟨-2 ^ 53, 0⟩ ⟨8, 0⟩ := by
      push_cast
      norm_num at h ⊢
      linarith
    exact_mod_cast this

/-! ### Examples -/

/-- A distance of 5, and a line of length 12. -/
example (S : Root double) : lengthF S [⟨0, 0⟩, ⟨3, 4⟩, ⟨3, 4⟩, ⟨10, 4⟩] = .ok 12 := by
  have c : ∀ n : ℤ, |n| ≤ 2 ^ 25 → InUnits 0 (2 ^ 25) (n : ℚ) := fun n h => ⟨n, h, by simp⟩
  have d : ∀ n : ℤ, |n| ≤ 2 ^ 26 → InUnits 0 (2 ^ 26) (n : ℚ) := fun n h => ⟨n, h, by simp⟩
  have := C169_exact S 0 [⟨0, 0⟩, ⟨3, 4⟩, ⟨3, 4⟩, ⟨10, 4⟩] [5, 0, 7] (by
      intro v hv
      simp only [List.mem_cons, List.not_mem_nil, or_false] at hv
      rcases hv with rfl | rfl | rfl | rfl
      · exact ⟨c 0 (by norm_num), c 0 (by norm_num)⟩
      · exact ⟨c 3 (by norm_num), c 4 (by norm_num)⟩
      · exact ⟨c 3 (by norm_num), c 4 (by norm_num)⟩
      · exact ⟨c 10 (by norm_num), c 4 (by norm_num)⟩) (by
      intro v hv
      simp only [List.mem_cons, List.not_mem_nil, or_false] at hv
      rcases hv with rfl | rfl | rfl
      · exact d 5 (by norm_num)
      · exact d 0 (by norm_num)
      · exact d 7 (by norm_num)) (by simp only [Steps]; norm_num) (by norm_num)
  rw [this]; norm_num

/-- The assumption of `C169_symmetric` holds for round to nearest. -/
example (p q : Pt) : distF (someRoot double) p q = distF (someRoot double) q p := C169_symmetric _ rnd_neg p q

end Karta.Float
