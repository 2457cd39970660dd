import Verif.Geod.Brent
import Mathlib.Tactic.Linarith
import Mathlib.Tactic.NormNum
import Mathlib.Tactic.Ring

namespace Karta.Geod.Brent
open Karta

/-- Spec: `x` is between `a` and `b`, whichever is larger. -/
def Between (a b x : ℚ) : Prop := min a b ≤ x ∧ x ≤ max a b

theorem between_left (a b : ℚ) : Between a b a := ⟨min_le_left _ _, le_max_left _ _⟩
theorem between_right (a b : ℚ) : Between a b b := ⟨min_le_right _ _, le_max_right _ _⟩

theorem Between.sub {a b u v x : ℚ} (hu : Between a b u) (hv : Between a b v) (hx : Between u v x) : Between a b x :=
  ⟨(le_min hu.1 hv.1).trans hx.1, hx.2.trans (max_le hu.2 hv.2)⟩

/-- The new abscissa lies in the bracket, whatever the interpolation gives. -/
theorem choose_between (s : St) (t : ℚ) : Between s.a s.b (choose s t).1 := by
  unfold choose
  by_cases h : reject s t = true
  · rw [if_pos h]
    rcases le_total s.a s.b with hab | hab
    · simp only [Between, min_eq_left hab, max_eq_right hab]; constructor <;> linarith
    · simp only [Between, min_eq_right hab, max_eq_left hab]; constructor <;> linarith
  · rw [if_neg h]
    unfold reject at h
    simp only [Bool.or_eq_true, not_or, Bool.and_eq_true, Bool.not_eq_true', decide_eq_false_iff_not] at h
    have h1 := h.1.1.1.1
    have h2 : (1 / 4 * (3 * s.a + s.b) < t ∧ t < s.b) ∨ (s.b < t ∧ t < 1 / 4 * (3 * s.a + s.b)) := by
      by_contra hc
      push Not at hc
      apply h1
      refine ⟨fun hh => absurd hh.2 (not_lt.mpr (hc.1 hh.1)), fun hh => absurd hh.2 (not_lt.mpr (hc.2 hh.1))⟩
    rcases h2 with ⟨u, v⟩ | ⟨u, v⟩
    · have hab : s.a ≤ s.b := by linarith
      simp only [Between, min_eq_left hab, max_eq_right hab]; constructor <;> linarith
    · have hab : s.b ≤ s.a := by linarith
      simp only [Between, min_eq_right hab, max_eq_left hab]; constructor <;> linarith

/-- No denominator vanishes while the values at the ends of the bracket differ. -/
theorem trial_ok (s : St) (fc : ℚ) (h : s.fa ≠ s.fb) : ∃ t, trial s fc = .ok t := by
  unfold trial
  by_cases h1 : s.fa ≠ fc ∧ s.fb ≠ fc
  · rw [if_pos h1, if_neg]
    · exact ⟨_, rfl⟩
    · simp only [mul_eq_zero, sub_eq_zero, not_or]
      exact ⟨⟨h, h1.1⟩, ⟨h.symm, h1.2⟩, ⟨h1.1.symm, h1.2.symm⟩⟩
  · rw [if_neg h1, if_neg (sub_ne_zero.mpr h.symm)]
    exact ⟨_, rfl⟩

/-- Spec: `r` answers the search for a root of `f` between `a` and `b`: it lies there, and it is a root or a point from
which, less than `tol` away and also between `a` and `b`, there is another at which `f` has the opposite sign. -/
def Answer (f : ℚ → ℚ) (a b tol r : ℚ) : Prop :=
  Between a b r ∧ (f r = 0 ∨ ∃ q, Between a b q ∧ |r - q| < tol ∧ f r * f q < 0)

theorem nextState_spec (f : ℚ → ℚ) (s : St) (p : ℚ) (m : Bool) :
    (nextState f s p m).fa = f (nextState f s p m).a ∧ (nextState f s p m).fb = f (nextState f s p m).b ∧
    ((f s.a * f p < 0 ∧ (((nextState f s p m).a = s.a ∧ (nextState f s p m).b = p) ∨
        ((nextState f s p m).a = p ∧ (nextState f s p m).b = s.a))) ∨
     (¬ f s.a * f p < 0 ∧ (((nextState f s p m).a = p ∧ (nextState f s p m).b = s.b) ∨
        ((nextState f s p m).a = s.b ∧ (nextState f s p m).b = p)))) := by
  unfold nextState
  by_cases h : f s.a * f p < 0
  · simp only [if_pos h]
    by_cases h2 : |f s.a| < |f p|
    · simp only [if_pos h2]; simp [h]
    · simp only [if_neg h2]; simp [h]
  · simp only [if_neg h]
    by_cases h2 : |f p| < |f s.b|
    · simp only [if_pos h2]; simp [h]
    · simp only [if_neg h2]; simp [h]

theorem ne_of_mul_neg {x y : ℚ} (h : x * y < 0) : x ≠ y := by
  rintro rfl
  exact absurd h (not_lt.mpr (mul_self_nonneg x))

/-- The new bracket still has a change of sign, unless the new abscissa is a root. -/
theorem nextState_sign (f : ℚ → ℚ) (s : St) (p : ℚ) (m : Bool) (hab : f s.a * f s.b < 0) (hp : f p ≠ 0) :
    f (nextState f s p m).a * f (nextState f s p m).b < 0 := by
  have key : ¬ f s.a * f p < 0 → f p * f s.b < 0 := by
    intro hn
    have hpos : 0 < f s.a * f p := by
      refine lt_of_le_of_ne (not_lt.mp hn) fun h0 => ?_
      rcases mul_eq_zero.mp h0.symm with h | h
      · rw [h, zero_mul] at hab; exact absurd hab (lt_irrefl _)
      · exact hp h
    by_contra hc
    have h3 := mul_nonneg (not_lt.mp hc) hpos.le
    have h4 : 0 < f p * f p := mul_self_pos.mpr hp
    have h5 := mul_neg_of_pos_of_neg h4 hab
    nlinarith
  obtain ⟨_, _, e3⟩ := nextState_spec f s p m
  rcases e3 with ⟨hn, h | h⟩ | ⟨hn, h | h⟩
  · rw [h.1, h.2]; exact hn
  · rw [h.1, h.2, mul_comm]; exact hn
  · rw [h.1, h.2]; exact key hn
  · rw [h.1, h.2, mul_comm]; exact key hn

theorem loop_spec (f : ℚ → ℚ) (lo hi tol : ℚ) : ∀ (n : Nat) (s : St),
    Between lo hi s.a → Between lo hi s.b → f s.a * f s.b < 0 → s.fa ≠ s.fb →
    (∀ r, loop f tol n s = .ok r → Answer f lo hi tol r) ∧ ∀ e, loop f tol n s = .error e → e = .other
  | 0, s, _, _, _, _ => ⟨fun r h => (by cases h), fun e h => (by cases h; rfl)⟩
  | n + 1, s, ha, hb, hab, hne => by
    obtain ⟨t, ht⟩ := trial_ok s (f s.c) hne
    have hp : Between lo hi (choose s t).1 := ha.sub hb (choose_between s t)
    obtain ⟨e1, e2, e3⟩ := nextState_spec f s (choose s t).1 (choose s t).2
    have hsign := nextState_sign f s (choose s t).1 (choose s t).2 hab
    have hl : loop f tol (n + 1) s = (if (nextState f s (choose s t).1 (choose s t).2).fb = 0
        then .ok (nextState f s (choose s t).1 (choose s t).2).b
        else if f (choose s t).1 = 0 then .ok (choose s t).1
        else if |(nextState f s (choose s t).1 (choose s t).2).b - (nextState f s (choose s t).1 (choose s t).2).a| < tol
        then .ok (nextState f s (choose s t).1 (choose s t).2).b
        else loop f tol n (nextState f s (choose s t).1 (choose s t).2)) := by
      rw [loop, ht]
    rw [hl]
    generalize nextState f s (choose s t).1 (choose s t).2 = s' at *
    generalize (choose s t).1 = p at *
    have ha' : Between lo hi s'.a := by
      rcases e3 with ⟨_, h | h⟩ | ⟨_, h | h⟩ <;> rw [h.1] <;> assumption
    have hb' : Between lo hi s'.b := by
      rcases e3 with ⟨_, h | h⟩ | ⟨_, h | h⟩ <;> rw [h.2] <;> assumption
    by_cases h1 : s'.fb = 0
    · rw [if_pos h1]
      exact ⟨fun r h => (by cases h; exact ⟨hb', Or.inl (by rw [← e2]; exact h1)⟩), fun e h => (by cases h)⟩
    rw [if_neg h1]
    by_cases h2 : f p = 0
    · rw [if_pos h2]
      exact ⟨fun r h => (by cases h; exact ⟨hp, Or.inl h2⟩), fun e h => (by cases h)⟩
    rw [if_neg h2]
    have hab' := hsign h2
    by_cases h3 : |s'.b - s'.a| < tol
    · rw [if_pos h3]
      exact ⟨fun r h => (by cases h; exact ⟨hb', Or.inr ⟨s'.a, ha', h3, by rw [mul_comm]; exact hab'⟩⟩),
        fun e h => (by cases h)⟩
    rw [if_neg h3]
    exact loop_spec f lo hi tol n s' ha' hb' hab' (by rw [e1, e2]; exact ne_of_mul_neg hab')

/-- The search proper, from either orientation of the bracket. -/
theorem start_spec (a b tol : ℚ) (f : ℚ → ℚ) (n : Nat) (h1 : f a ≠ 0) (h2 : f b ≠ 0) (h3 : ¬ f a * f b > 0)
    (x : Except Err ℚ)
    (hx : x = if |f a| < |f b| then loop f tol n ⟨b, a, b, none, f a, f b, true⟩
      else loop f tol n ⟨a, b, a, none, f a, f b, true⟩) :
    (∀ r, x = .ok r → Answer f a b tol r) ∧ ∀ e, x = .error e → e = .other := by
  have hab : f a * f b < 0 := lt_of_le_of_ne (not_lt.mp h3) (mul_ne_zero h1 h2)
  subst hx
  by_cases h4 : |f a| < |f b|
  · rw [if_pos h4]
    exact loop_spec f a b tol n ⟨b, a, b, none, f a, f b, true⟩ (between_right _ _) (between_left _ _)
      (by rw [mul_comm]; exact hab) (ne_of_mul_neg hab)
  · rw [if_neg h4]
    exact loop_spec f a b tol n ⟨a, b, a, none, f a, f b, true⟩ (between_left _ _) (between_right _ _) hab
      (ne_of_mul_neg hab)

/-- **C52.**  For every function, interval and tolerance: a value returned by the solver is in the interval, and is a root
or within the tolerance of a change of sign. -/
theorem C52_answer {a b tol r : ℚ} {f : ℚ → ℚ} (h : fzeroBrent a b f tol = .ok r) : Answer f a b tol r := by
  unfold fzeroBrent at h
  by_cases h1 : f a = 0
  · rw [if_pos h1] at h; cases h; exact ⟨between_left _ _, Or.inl h1⟩
  rw [if_neg h1] at h
  by_cases h2 : f b = 0
  · rw [if_pos h2] at h; cases h; exact ⟨between_right _ _, Or.inl h2⟩
  rw [if_neg h2] at h
  by_cases h3 : f a * f b > 0
  · rw [if_pos h3] at h; cases h
  rw [if_neg h3] at h
  exact (start_spec a b tol f 1000 h1 h2 h3 _ rfl).1 r h

/-- **C52.**  The complaint that the root is not bracketed is made exactly when both values have the same strict sign; the
only other error is that of too many iterations: in particular nothing is ever divided by zero. -/
theorem C52_errors (a b tol : ℚ) (f : ℚ → ℚ) :
    (fzeroBrent a b f tol = .error .valueError ↔ (0 < f a ∧ 0 < f b) ∨ (f a < 0 ∧ f b < 0)) ∧
    ∀ e, fzeroBrent a b f tol = .error e → e = .valueError ∨ e = .other := by
  have hsign : f a * f b > 0 ↔ (0 < f a ∧ 0 < f b) ∨ (f a < 0 ∧ f b < 0) := mul_pos_iff
  unfold fzeroBrent
  by_cases h1 : f a = 0
  · rw [if_pos h1]
    refine ⟨⟨fun h => (by cases h), fun h => ?_⟩, fun e h => (by cases h)⟩
    rw [h1] at h; rcases h with h | h <;> exact absurd h.1 (lt_irrefl _)
  rw [if_neg h1]
  by_cases h2 : f b = 0
  · rw [if_pos h2]
    refine ⟨⟨fun h => (by cases h), fun h => ?_⟩, fun e h => (by cases h)⟩
    rw [h2] at h; rcases h with h | h <;> exact absurd h.2 (lt_irrefl _)
  rw [if_neg h2]
  by_cases h3 : f a * f b > 0
  · rw [if_pos h3]
    exact ⟨⟨fun _ => hsign.mp h3, fun _ => rfl⟩, fun e h => Or.inl (by cases h; rfl)⟩
  rw [if_neg h3]
  have hl := start_spec a b tol f 1000 h1 h2 h3 _ rfl
  refine ⟨⟨fun h => ?_, fun h => absurd (hsign.mpr h) h3⟩, fun e h => Or.inr (hl.2 e h)⟩
  have := hl.2 _ h
  cases this

/-- **C52.**  An end that is already a root is returned unchanged. -/
theorem C52_root_at_end (a b tol : ℚ) (f : ℚ → ℚ) :
    (f a = 0 → fzeroBrent a b f tol = .ok a) ∧ (f a ≠ 0 → f b = 0 → fzeroBrent a b f tol = .ok b) :=
  ⟨fun h => by unfold fzeroBrent; rw [if_pos h], fun h h' => by unfold fzeroBrent; rw [if_neg h, if_pos h']⟩

example : fzeroBrent (-1) 1 (fun x => if x < 0 then -1 else 1) (1 / 2) = .ok 0 ∧
    fzeroBrent 1 2 (fun x => x * x - 2) (1 / 10) = .ok (41 / 29) ∧
    fzeroBrent 2 3 (fun x => x * x - 2) (1 / 10) = .error .valueError := by
  refine ⟨by decide +kernel, by decide +kernel, by decide +kernel⟩

end Karta.Geod.Brent
