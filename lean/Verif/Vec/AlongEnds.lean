import Verif.Vec.AlongProps

/-!
Property C171: whether `Line.to_points` and `Line.to_npoints` (karta/vector/geometry.py 891-960) come to an end.

In the model (`Verif/Vec/Along.lean`) a call that needs more than `fuel` rounds of its loop is `none`.
-/

namespace Karta.AlongEnds
open Karta Karta.Along

/-! ### Lemmas -/

theorem segLoop_done (dx : ℝ) (a b : ℝ × ℝ) (pos : ℝ) (w : Walker) (h : gap a b ≤ pos) (fuel : Nat) (hf : 1 ≤ fuel) :
    segLoop dx a b fuel pos w = some w := by
  obtain ⟨f, rfl⟩ : ∃ f, fuel = f + 1 := ⟨fuel - 1, by omega⟩
  rw [segLoop, dist_gap, if_neg (not_lt.2 h)]

/-- Once the remainder is used up, each round advances by the spacing. -/
theorem segLoop_ends (dx : ℝ) (hdx : 0 < dx) (a b : ℝ × ℝ) : ∀ (f : Nat) (pos : ℝ) (w : Walker), 0 ≤ pos → w.remainder = 0 →
    gap a b - pos ≤ f * dx → ∃ w', (∀ fuel, f + 1 ≤ fuel → segLoop dx a b fuel pos w = some w') ∧ 0 ≤ w'.remainder ∧ w'.remainder < dx
  | 0, pos, w, hp, hr, hf => by
    rw [Nat.cast_zero, zero_mul] at hf
    exact ⟨w, fun fuel h => segLoop_done dx a b pos w (by linarith) fuel (by omega), hr.ge, by rw [hr]; exact hdx⟩
  | f + 1, pos, w, hp, hr, hf => by
    by_cases h : pos < gap a b
    · by_cases hd : dx ≤ gap w.pt0 b
      · have hw := walkAlong_eq w.pt0 a b (dx - w.remainder) (lt_of_le_of_lt hp h)
        obtain ⟨w', h1, h2⟩ := segLoop_ends dx hdx a b f (pos + (dx - w.remainder)) ⟨0, _, w.vertices ++ [(w.pt0.1 + (dx - w.remainder) / gap a b * (b.1 - a.1),
          w.pt0.2 + (dx - w.remainder) / gap a b * (b.2 - a.2))]⟩ (by rw [hr]; linarith) rfl (by rw [hr]; push_cast at hf; linarith)
        refine ⟨w', fun fuel hfu => ?_, h2⟩
        obtain ⟨k, rfl⟩ : ∃ k, fuel = k + 1 := ⟨fuel - 1, by omega⟩
        rw [segLoop, dist_gap, if_pos h, dist_gap, if_pos hd, hw]
        exact h1 k (by omega)
      · push Not at hd
        refine ⟨⟨gap w.pt0 b, b, w.vertices⟩, fun fuel hfu => ?_, gap_nonneg _ _, hd⟩
        obtain ⟨k, rfl⟩ : ∃ k, fuel = k + 1 := ⟨fuel - 1, by omega⟩
        rw [segLoop, dist_gap, if_pos h, dist_gap, if_neg (not_le.2 hd)]
        exact segLoop_done dx a b _ _ le_rfl k (by omega)
    · exact ⟨w, fun fuel hfu => segLoop_done dx a b pos w (not_lt.1 h) fuel (by omega), hr.ge, by rw [hr]; exact hdx⟩

theorem segLoop_start (dx : ℝ) (hdx : 0 < dx) (a b : ℝ × ℝ) (f : Nat) (w : Walker) (h0 : 0 ≤ w.remainder) (h1 : w.remainder < dx)
    (hf : gap a b ≤ f * dx) : ∃ w', (∀ fuel, f + 2 ≤ fuel → segLoop dx a b fuel 0 w = some w') ∧ 0 ≤ w'.remainder ∧ w'.remainder < dx := by
  by_cases h : 0 < gap a b
  · by_cases hd : dx ≤ gap w.pt0 b
    · have hw := walkAlong_eq w.pt0 a b (dx - w.remainder) h
      obtain ⟨w', h2, h3⟩ := segLoop_ends dx hdx a b f (0 + (dx - w.remainder)) ⟨0, _, w.vertices ++ [(w.pt0.1 + (dx - w.remainder) / gap a b * (b.1 - a.1),
        w.pt0.2 + (dx - w.remainder) / gap a b * (b.2 - a.2))]⟩ (by linarith) rfl (by linarith)
      refine ⟨w', fun fuel hfu => ?_, h3⟩
      obtain ⟨k, rfl⟩ : ∃ k, fuel = k + 1 := ⟨fuel - 1, by omega⟩
      rw [segLoop, dist_gap, if_pos h, dist_gap, if_pos hd, hw]
      exact h2 k (by omega)
    · push Not at hd
      refine ⟨⟨gap w.pt0 b, b, w.vertices⟩, fun fuel hfu => ?_, gap_nonneg _ _, hd⟩
      obtain ⟨k, rfl⟩ : ∃ k, fuel = k + 1 := ⟨fuel - 1, by omega⟩
      rw [segLoop, dist_gap, if_pos h, dist_gap, if_neg (not_le.2 hd)]
      exact segLoop_done dx a b _ _ le_rfl k (by omega)
  · exact ⟨w, fun fuel hfu => segLoop_done dx a b 0 w (not_lt.1 h) fuel (by omega), h0, h1⟩

theorem lineLoop_ends (dx : ℝ) (hdx : 0 < dx) (f : Nat) : ∀ (vs : List (ℝ × ℝ)) (w : Walker), 0 ≤ w.remainder → w.remainder < dx →
    lineLength vs ≤ f * dx → ∃ w', ∀ fuel, f + 2 ≤ fuel → lineLoop dx fuel vs w = some w'
  | [], w, _, _, _ => ⟨w, fun _ _ => rfl⟩
  | [_], w, _, _, _ => ⟨w, fun _ _ => rfl⟩
  | a :: b :: r, w, h0, h1, hf => by
    rw [lineLength] at hf
    have p1 := lineLength_nonneg (b :: r)
    have p2 := gap_nonneg a b
    obtain ⟨w1, e1, e2, e3⟩ := segLoop_start dx hdx a b f w h0 h1 (by linarith)
    obtain ⟨w2, e4⟩ := lineLoop_ends dx hdx f (b :: r) w1 e2 e3 (by linarith)
    refine ⟨w2, fun fuel hfu => ?_⟩
    rw [lineLoop, e1 fuel hfu]
    exact e4 fuel hfu

/-- Without a positive spacing the position never grows. -/
theorem segLoop_endless (dx : ℝ) (hdx : dx ≤ 0) (a b : ℝ × ℝ) (hab : 0 < gap a b) : ∀ (fuel : Nat) (pos : ℝ) (w : Walker), pos ≤ 0 →
    w.remainder = 0 → segLoop dx a b fuel pos w = none
  | 0, _, _, _, _ => rfl
  | fuel + 1, pos, w, hp, hr => by
    rw [segLoop, dist_gap, if_pos (lt_of_le_of_lt hp hab), dist_gap, if_pos (hdx.trans (gap_nonneg _ _)), walkAlong_eq _ _ _ _ hab]
    exact segLoop_endless dx hdx a b hab fuel _ _ (by rw [hr]; linarith) rfl

theorem lineLoop_endless (dx : ℝ) (hdx : dx ≤ 0) : ∀ (vs : List (ℝ × ℝ)) (w : Walker), w.remainder = 0 → 0 < lineLength vs →
    ∀ fuel, lineLoop dx fuel vs w = none
  | [], _, _, h, _ => absurd h (lt_irrefl _)
  | [_], _, _, h, _ => absurd h (lt_irrefl _)
  | a :: b :: r, w, hw, h, fuel => by
    rw [lineLoop]
    rcases (gap_nonneg a b).eq_or_lt with h0 | h0
    · rw [lineLength, ← h0, zero_add] at h
      cases fuel with
      | zero => rfl
      | succ f =>
        rw [segLoop_done dx a b 0 w h0.ge (f + 1) (by omega)]
        exact lineLoop_endless dx hdx (b :: r) w hw h (f + 1)
    · rw [segLoop_endless dx hdx a b h0 fuel 0 w le_rfl hw]

/-- With a step that is not positive the position never grows, and the point walked to is never the end of the segment. -/
theorem stepLoop_endless (total step : ℝ) (hstep : step ≤ 0) (ht : 1 / 10 ^ 8 < total) : ∀ (fuel : Nat) (s : Stepper), s.x ≤ 0 →
    s.stepRemaining ≤ 0 → 0 ≤ s.segRemaining → s.pos = s.segA → 0 < gap s.segA s.segB → stepLoop total step fuel s = none
  | 0, _, _, _, _, _, _ => rfl
  | fuel + 1, s, hx, h1, h2, hp, hg => by
    rw [stepLoop, if_pos (by linarith), if_pos (by linarith), walkAlong_eq _ _ _ _ hg]
    dsimp only
    have e : (s.pos.1 + s.stepRemaining / gap s.segA s.segB * (s.segB.1 - s.segA.1), s.pos.2 + s.stepRemaining / gap s.segA s.segB * (s.segB.2 - s.segA.2)) =
        between s.segA s.segB (s.stepRemaining / gap s.segA s.segB) := by rw [hp]; rfl
    have ht1 : s.stepRemaining / gap s.segA s.segB ≤ 0 := div_nonpos_of_nonpos_of_nonneg h1 hg.le
    refine stepLoop_endless total step hstep ht fuel _ (by dsimp only; linarith) hstep (by dsimp only; linarith) rfl ?_
    dsimp only
    rw [e, gap_between_right _ _ (by linarith)]
    exact mul_pos (by linarith) hg

/-! ### C171 -/

/-- C171.  With a positive spacing `to_points` ends on every line, also one with short segments, after at most `f + 2` rounds per segment where `f`
spacings cover the line. -/
theorem C171_to_points (dx : ℝ) (hdx : 0 < dx) (vs : List (ℝ × ℝ)) (h : vs ≠ []) (f : Nat) (hf : lineLength vs ≤ f * dx) :
    ∃ l, ∀ fuel, f + 2 ≤ fuel → toPoints dx fuel vs = some l := by
  obtain ⟨a, r, rfl⟩ := List.exists_cons_of_ne_nil h
  obtain ⟨w, hw⟩ := lineLoop_ends dx hdx f (a :: r) ⟨0, a, [a]⟩ le_rfl hdx hf
  exact ⟨w.vertices, fun fuel hfu => by rw [toPoints, hw fuel hfu]; rfl⟩

/-- C171 is violated by spacings that are zero or negative: on a line of positive length `to_points` never ends. -/
theorem C171_violated_spacing (dx : ℝ) (hdx : dx ≤ 0) (vs : List (ℝ × ℝ)) (h : 0 < lineLength vs) (fuel : Nat) : toPoints dx fuel vs = none := by
  cases vs with
  | nil => rfl
  | cons a r => rw [toPoints, lineLoop_endless dx hdx (a :: r) _ rfl h]; rfl

/-- C171.  `to_npoints(n)` ends for `n ≥ 2` on every line with at least one segment, after at most `n` rounds and one for each vertex. -/
theorem C171_to_npoints (n : Nat) (hn : 2 ≤ n) (a b : ℝ × ℝ) (r : List (ℝ × ℝ)) :
    ∃ l, ∀ fuel, n + r.length + 2 ≤ fuel → toNPoints n fuel (a :: b :: r) = some l := by
  have hn' : (0 : ℝ) < (n : ℝ) - 1 := by
    have : (2 : ℝ) ≤ n := by exact_mod_cast hn
    linarith
  have key : ∀ fuel, n + r.length + 2 ≤ fuel → ∃ l, toNPoints n fuel (a :: b :: r) = some l := by
    intro fuel hfu
    unfold toNPoints
    dsimp only
    rw [total_eq]
    rcases (lineLength_nonneg (a :: b :: r)).eq_or_lt with h0 | h0
    · obtain ⟨k, rfl⟩ : ∃ k, fuel = k + 1 := ⟨fuel - 1, by omega⟩
      rw [stepLoop, if_neg (by rw [← h0]; norm_num)]
      exact ⟨_, rfl⟩
    · obtain ⟨s, hs, -⟩ := stepLoop_ok (a :: b :: r) n (lineLength (a :: b :: r) / ((n : ℝ) - 1)) (by field_simp) fuel
        ⟨0, a, a, b, r, Along.dist a b, lineLength (a :: b :: r) / ((n : ℝ) - 1), [a]⟩
        ⟨rfl, dist_gap a b, fun t q hq => by simpa using hq, by simp, by simp, div_pos h0 hn', le_rfl, by
          intro k p hk
          cases k with
          | zero => simp at hk; subst hk; rw [Nat.cast_zero, zero_mul]; exact At_start _ _ _
          | succ k => simp at hk, ⟨[a], rfl⟩⟩ (by simp; omega) (by simp; omega)
      rw [hs]
      exact ⟨_, rfl⟩
  have mono : ∀ (total step : ℝ) (fuel : Nat) (s s' : Stepper), stepLoop total step fuel s = some s' → stepLoop total step (fuel + 1) s = some s' := by
    intro total step fuel
    induction fuel with
    | zero => intro s s' h; simp [stepLoop] at h
    | succ k ih =>
      intro s s' h
      rw [stepLoop] at h ⊢
      split_ifs at h ⊢ with h1 h2
      · cases hw : walkAlong s.pos s.stepRemaining s.segA s.segB with
        | none => rw [hw] at h; simp at h
        | some p => rw [hw] at h; exact ih _ _ h
      · cases hr : s.rest with
        | nil => rw [hr] at h; exact ih _ _ h
        | cons c r => rw [hr] at h; exact ih _ _ h
      · exact h
  obtain ⟨l, hl⟩ := key (n + r.length + 2) le_rfl
  refine ⟨l, fun fuel hfu => ?_⟩
  induction fuel, hfu using Nat.le_induction with
  | base => exact hl
  | succ k hk ih =>
    unfold toNPoints at ih ⊢
    dsimp only at ih ⊢
    cases hs : stepLoop ((0 :: cumulengthGo a 0 (b :: r)).getLast (by simp)) ((0 :: cumulengthGo a 0 (b :: r)).getLast (by simp) / ((n : ℝ) - 1)) k
        ⟨0, a, a, b, r, Along.dist a b, (0 :: cumulengthGo a 0 (b :: r)).getLast (by simp) / ((n : ℝ) - 1), [a]⟩ with
    | none => rw [hs] at ih; simp at ih
    | some s => rw [hs] at ih; rw [mono _ _ _ _ _ hs]; exact ih

/-- C171 is violated by `to_npoints(0)`: on a line longer than 1e-8 whose first segment has a length it never ends, going backwards from the first
vertex. -/
theorem C171_violated_npoints (a b : ℝ × ℝ) (r : List (ℝ × ℝ)) (hab : 0 < gap a b) (h : 1 / 10 ^ 8 < lineLength (a :: b :: r)) (fuel : Nat) :
    toNPoints 0 fuel (a :: b :: r) = none := by
  unfold toNPoints
  dsimp only
  rw [total_eq]
  have hs : lineLength (a :: b :: r) / (((0 : Nat) : ℝ) - 1) ≤ 0 := by
    rw [Nat.cast_zero, zero_sub, div_neg, div_one]
    linarith [lineLength_nonneg (a :: b :: r)]
  rw [stepLoop_endless _ _ hs h fuel _ le_rfl hs (by rw [dist_gap]; exact hab.le) rfl hab]

/-! ### Examples -/

/-- The hypotheses: a line of length 6 with short segments, spacings 5 and 0. -/
example : lineLength [((0 : ℝ), (0 : ℝ)), (3, 0), (6, 0)] ≤ (2 : ℕ) * (5 : ℝ) ∧ 0 < lineLength [((0 : ℝ), (0 : ℝ)), (3, 0), (6, 0)] ∧
    1 / 10 ^ 8 < lineLength [((0 : ℝ), (0 : ℝ)), (3, 0), (6, 0)] ∧ 0 < gap ((0 : ℝ), (0 : ℝ)) (3, 0) := by
  have g1 : gap (0, 0) (3, 0) = 3 := by rw [gap_x _ _ (by norm_num)]; norm_num
  have g2 : gap (3, 0) (6, 0) = 3 := by rw [gap_x _ _ (by norm_num)]; norm_num
  simp only [lineLength, g1, g2]
  norm_num

end Karta.AlongEnds
