import Verif.Vec.Basic
import Mathlib.Analysis.SpecialFunctions.Sqrt
import Mathlib.Tactic.Positivity
import Mathlib.Tactic.LinearCombination

/-!
# Bounds of polynomials by computation

Polynomials in three variables with rational coefficients, a normal form, and a bound of their values for small arguments that is
read off the normal form.  Used to bound the errors of the truncated series of karta/geodesy.py; models no code itself.
-/

namespace Karta.Geod.Poly

/-- A polynomial in `n`, `e` and `x`. -/
inductive Ex where
  | const (q : ℚ)
  | n
  | e
  | x
  | add (p q : Ex)
  | mul (p q : Ex)
  | pow (p : Ex) (k : ℕ)

/-- Its value. -/
noncomputable def Ex.eval (n e x : ℝ) : Ex → ℝ
  | .const q => (q : ℝ)
  | .n => n
  | .e => e
  | .x => x
  | .add p q => p.eval n e x + q.eval n e x
  | .mul p q => p.eval n e x * q.eval n e x
  | .pow p k => p.eval n e x ^ k

instance : Add Ex := ⟨Ex.add⟩
instance : Mul Ex := ⟨Ex.mul⟩
instance : Pow Ex ℕ := ⟨Ex.pow⟩
instance : Sub Ex := ⟨fun p q => .add p (.mul (.const (-1)) q)⟩
instance : Coe ℚ Ex := ⟨Ex.const⟩

variable (n e x : ℝ)

theorem eval_const (q : ℚ) : (Ex.const q).eval n e x = (q : ℝ) := rfl
theorem eval_n : Ex.n.eval n e x = n := rfl
theorem eval_e : Ex.e.eval n e x = e := rfl
theorem eval_x : Ex.x.eval n e x = x := rfl
theorem eval_add (p q : Ex) : (p + q).eval n e x = p.eval n e x + q.eval n e x := rfl
theorem eval_mul (p q : Ex) : (p * q).eval n e x = p.eval n e x * q.eval n e x := rfl
theorem eval_pow (p : Ex) (k : ℕ) : (p ^ k).eval n e x = p.eval n e x ^ k := rfl
theorem eval_sub (p q : Ex) : (p - q).eval n e x = p.eval n e x - q.eval n e x := by
  show p.eval n e x + ((-1 : ℚ) : ℝ) * q.eval n e x = _
  push_cast
  ring

/-- A term: coefficient and exponents of `n`, `e`, `x`. -/
structure Term where
  c : ℚ
  i : ℕ
  j : ℕ
  k : ℕ

/-- Value of a term. -/
noncomputable def Term.eval (t : Term) : ℝ := (t.c : ℝ) * n ^ t.i * e ^ t.j * x ^ t.k

/-- Value of a sum of terms. -/
noncomputable def ev (l : List Term) : ℝ := (l.map (Term.eval n e x)).sum

/-- Whether a term comes before another. -/
def before (s t : Term) : Bool :=
  Nat.blt s.j t.j || (Nat.beq s.j t.j && (Nat.blt s.k t.k || (Nat.beq s.k t.k && Nat.blt s.i t.i)))

/-- Whether two terms have the same exponents. -/
def same (s t : Term) : Bool := Nat.beq s.j t.j && (Nat.beq s.k t.k && Nat.beq s.i t.i)

/-- Sum of two lists of terms; like terms at the heads are put together.  The first argument bounds the number of steps. -/
def merge : ℕ → List Term → List Term → List Term
  | 0, p, q => p ++ q
  | _ + 1, [], q => q
  | _ + 1, p, [] => p
  | m + 1, s :: p, t :: q =>
    bif same s t then
      (bif (s.c + t.c).num == 0 then merge m p q else ⟨s.c + t.c, s.i, s.j, s.k⟩ :: merge m p q)
    else bif before s t then s :: merge m p (t :: q) else t :: merge m (s :: p) q

/-- A list of terms times a term. -/
def scale (t : Term) (l : List Term) : List Term := l.map fun s => ⟨t.c * s.c, t.i + s.i, t.j + s.j, t.k + s.k⟩

/-- Product of two lists of terms. -/
def times : List Term → List Term → List Term
  | [], _ => []
  | t :: p, q => merge 100000 (scale t q) (times p q)

/-- Power of a list of terms. -/
def power (p : List Term) : ℕ → List Term
  | 0 => [⟨1, 0, 0, 0⟩]
  | k + 1 => times p (power p k)

/-- The terms of a polynomial. -/
def norm : Ex → List Term
  | .const q => [⟨q, 0, 0, 0⟩]
  | .n => [⟨1, 1, 0, 0⟩]
  | .e => [⟨1, 0, 1, 0⟩]
  | .x => [⟨1, 0, 0, 1⟩]
  | .add p q => merge 100000 (norm p) (norm q)
  | .mul p q => times (norm p) (norm q)
  | .pow p k => power (norm p) k

theorem ev_nil : ev n e x [] = 0 := rfl
theorem ev_cons (t : Term) (l : List Term) : ev n e x (t :: l) = t.eval n e x + ev n e x l := by simp [ev]
theorem ev_append (p q : List Term) : ev n e x (p ++ q) = ev n e x p + ev n e x q := by simp [ev]

theorem same_spec {s t : Term} (h : same s t = true) : s.i = t.i ∧ s.j = t.j ∧ s.k = t.k := by
  simp only [same, Bool.and_eq_true] at h
  exact ⟨Nat.eq_of_beq_eq_true h.2.2, Nat.eq_of_beq_eq_true h.1, Nat.eq_of_beq_eq_true h.2.1⟩

theorem ev_merge : ∀ (m : ℕ) (p q : List Term), ev n e x (merge m p q) = ev n e x p + ev n e x q := by
  intro m
  induction m with
  | zero => intro p q; rw [merge]; exact ev_append n e x p q
  | succ m ih =>
    intro p q
    cases p with
    | nil => rw [merge, ev_nil, zero_add]
    | cons s p =>
      cases q with
      | nil => rw [merge, ev_nil, add_zero]; simp
      | cons t q =>
        rw [merge]
        cases hs : same s t with
        | true =>
          obtain ⟨h1, h2, h3⟩ := same_spec hs
          have he : s.eval n e x + t.eval n e x = ((s.c + t.c : ℚ) : ℝ) * n ^ s.i * e ^ s.j * x ^ s.k := by
            simp only [Term.eval, ← h1, ← h2, ← h3]
            push_cast
            ring
          rw [cond_true]
          cases hz : ((s.c + t.c).num == 0) with
          | true =>
            have hz' : s.c + t.c = 0 := Rat.num_eq_zero.1 (by simpa using hz)
            rw [cond_true, ih, ev_cons, ev_cons]
            rw [hz'] at he
            push_cast at he
            linarith
          | false =>
            rw [cond_false, ev_cons, ih, ev_cons, ev_cons]
            show ((s.c + t.c : ℚ) : ℝ) * n ^ s.i * e ^ s.j * x ^ s.k + _ = _
            linarith
        | false =>
          rw [cond_false]
          cases hb : before s t with
          | true => rw [cond_true, ev_cons, ih, ev_cons n e x s p]; ring
          | false => rw [cond_false, ev_cons, ih, ev_cons n e x t q]; ring

theorem ev_scale (t : Term) (l : List Term) : ev n e x (scale t l) = t.eval n e x * ev n e x l := by
  induction l with
  | nil => simp [scale, ev]
  | cons s l ih =>
    have : scale t (s :: l) = ⟨t.c * s.c, t.i + s.i, t.j + s.j, t.k + s.k⟩ :: scale t l := rfl
    rw [this, ev_cons, ev_cons, ih]
    simp only [Term.eval, pow_add]
    push_cast
    ring

theorem ev_times (p q : List Term) : ev n e x (times p q) = ev n e x p * ev n e x q := by
  induction p with
  | nil => simp [times, ev]
  | cons t p ih => rw [times, ev_merge, ev_scale, ih, ev_cons]; ring

theorem ev_power (p : List Term) (k : ℕ) : ev n e x (power p k) = ev n e x p ^ k := by
  induction k with
  | zero => simp [power, ev, Term.eval]
  | succ k ih => rw [power, ev_times, ih]; ring

theorem ev_norm (p : Ex) : ev n e x (norm p) = p.eval n e x := by
  induction p with
  | const q => simp [norm, ev, Term.eval, Ex.eval]
  | n => simp [norm, ev, Term.eval, Ex.eval]
  | e => simp [norm, ev, Term.eval, Ex.eval]
  | x => simp [norm, ev, Term.eval, Ex.eval]
  | add p q hp hq => rw [norm, ev_merge, hp, hq, Ex.eval]
  | mul p q hp hq => rw [norm, ev_times, hp, hq, Ex.eval]
  | pow p k hp => rw [norm, ev_power, hp, Ex.eval]

/-- Absolute coefficients of the terms, those of degree `m + d` in `n` and `e` together divided by `10 ^ d`. -/
def size (m : ℕ) : List Term → ℚ
  | [] => 0
  | t :: l => |t.c| / 10 ^ (t.i + t.j - m) + size m l

/-- All terms have at least degree `m` in `n` and `e` together. -/
def order (m : ℕ) : List Term → Bool
  | [] => true
  | t :: l => Nat.ble m (t.i + t.j) && order m l

/-- Whether the polynomial is of order `m` with constant `K`. -/
def check (p : Ex) (m : ℕ) (K : ℚ) : Bool := order m (norm p) && decide (size m (norm p) ≤ K)

variable {n e x}

theorem ev_bound (m : ℕ) (h0 : 0 ≤ e) (h1 : e ≤ n) (h2 : n ≤ 1 / 10) (hx : |x| ≤ 1) (l : List Term) (ho : order m l = true) :
    |ev n e x l| ≤ (size m l : ℝ) * n ^ m := by
  have hn : 0 ≤ n := h0.trans h1
  induction l with
  | nil => simp [ev, size]
  | cons t l ih =>
    simp only [order, Bool.and_eq_true, Nat.ble_eq] at ho
    obtain ⟨ha, hb⟩ := ho
    rw [ev_cons, size]
    push_cast
    rw [add_mul]
    refine (abs_add_le _ _).trans (add_le_add ?_ (ih hb))
    rw [Term.eval, abs_mul, abs_mul, abs_mul, abs_of_nonneg (pow_nonneg hn _), abs_of_nonneg (pow_nonneg h0 _), abs_pow]
    have e1 : e ^ t.j ≤ n ^ t.j := pow_le_pow_left₀ h0 h1 _
    have e2 : |x| ^ t.k ≤ 1 := pow_le_one₀ (abs_nonneg _) hx
    obtain ⟨d, hd⟩ := Nat.exists_eq_add_of_le ha
    have e3 : n ^ d ≤ (1 / 10) ^ d := pow_le_pow_left₀ hn h2 _
    have hs : t.i + t.j - m = d := by omega
    rw [hs]
    calc |(t.c : ℝ)| * n ^ t.i * e ^ t.j * |x| ^ t.k ≤ |(t.c : ℝ)| * n ^ t.i * n ^ t.j * 1 := by gcongr
      _ = |(t.c : ℝ)| * (n ^ d * n ^ m) := by rw [mul_one, mul_assoc, ← pow_add, hd, pow_add]; ring
      _ ≤ |(t.c : ℝ)| * ((1 / 10) ^ d * n ^ m) := by gcongr
      _ = |(t.c : ℝ)| / 10 ^ d * n ^ m := by rw [one_div, inv_pow]; ring

/-- A polynomial of order `m` with constant `K` is at most `K * n ^ m` for `0 ≤ e ≤ n ≤ 1/10` and `|x| ≤ 1`. -/
theorem bound {p : Ex} {m : ℕ} {K : ℚ} (h : check p m K = true) (h0 : 0 ≤ e) (h1 : e ≤ n) (h2 : n ≤ 1 / 10) (hx : |x| ≤ 1) :
    |p.eval n e x| ≤ (K : ℝ) * n ^ m := by
  simp only [check, Bool.and_eq_true, decide_eq_true_eq] at h
  rw [← ev_norm]
  refine (ev_bound m h0 h1 h2 hx _ h.1).trans ?_
  have : ((size m (norm p) : ℚ) : ℝ) ≤ (K : ℝ) := by exact_mod_cast h.2
  exact mul_le_mul_of_nonneg_right this (pow_nonneg (h0.trans h1) _)

end Karta.Geod.Poly
