import Verif.Vec.Along
import Verif.Geod.PlaneProps

/-!
# Positions along a line: properties

C91: cumulative lengths.  C92: `to_npoints` returns the requested number of points at equal spacing.  C93: `to_points` returns
points at the requested spacing.
-/

namespace Karta.Along
open Karta Karta.Geod

/-! ### Specification -/

/-- Spec: Euclidean distance. -/
noncomputable def gap (p q : ℝ × ℝ) : ℝ := Real.sqrt ((q.1 - p.1) ^ 2 + (q.2 - p.2) ^ 2)

/-- Spec: length of a line. -/
noncomputable def lineLength : List (ℝ × ℝ) → ℝ
  | a :: b :: r => gap a b + lineLength (b :: r)
  | _ => 0

/-- Spec: the position a fraction `t` of the way from `a` to `b`. -/
def between (a b : ℝ × ℝ) (t : ℝ) : ℝ × ℝ := (a.1 + t * (b.1 - a.1), a.2 + t * (b.2 - a.2))

/-- Spec: `p` is the position on the line that is reached after following it for the length `s`. -/
def At : List (ℝ × ℝ) → ℝ → ℝ × ℝ → Prop
  | a :: b :: r, s, p => (∃ t, 0 ≤ t ∧ t ≤ 1 ∧ p = between a b t ∧ s = t * gap a b) ∨ At (b :: r) (s - gap a b) p
  | [a], s, p => s = 0 ∧ p = a
  | [], _, _ => False

/-! ### Lemmas -/

theorem dist_gap (p q : ℝ × ℝ) : dist p q = gap p q := distance_flat (pt p) (pt q) (Or.inl rfl)

theorem gap_nonneg (p q : ℝ × ℝ) : 0 ≤ gap p q := Real.sqrt_nonneg _

theorem gap_between_left (a b : ℝ × ℝ) {t : ℝ} (ht : 0 ≤ t) : gap a (between a b t) = t * gap a b := by
  unfold gap between
  have : (a.1 + t * (b.1 - a.1) - a.1) ^ 2 + (a.2 + t * (b.2 - a.2) - a.2) ^ 2
      = t ^ 2 * ((b.1 - a.1) ^ 2 + (b.2 - a.2) ^ 2) := by ring
  simp only
  rw [this, Real.sqrt_mul (sq_nonneg t), Real.sqrt_sq ht]

theorem gap_between_right (a b : ℝ × ℝ) {t : ℝ} (ht : t ≤ 1) : gap (between a b t) b = (1 - t) * gap a b := by
  unfold gap between
  have : (b.1 - (a.1 + t * (b.1 - a.1))) ^ 2 + (b.2 - (a.2 + t * (b.2 - a.2))) ^ 2
      = (1 - t) ^ 2 * ((b.1 - a.1) ^ 2 + (b.2 - a.2) ^ 2) := by ring
  simp only
  rw [this, Real.sqrt_mul (sq_nonneg _), Real.sqrt_sq (by linarith)]

theorem between_zero (a b : ℝ × ℝ) : between a b 0 = a := by simp [between]
theorem between_one (a b : ℝ × ℝ) : between a b 1 = b := by simp [between]

theorem between_between (a b : ℝ × ℝ) (t u : ℝ) : between (between a b t) b u = between a b (t + u * (1 - t)) := by
  unfold between; simp only; congr 1 <;> ring

theorem eq_of_gap {a b : ℝ × ℝ} (h : gap a b = 0) : a = b := by
  unfold gap at h
  have h' := (Real.sqrt_eq_zero (by positivity)).mp h
  have h1 : (b.1 - a.1) ^ 2 = 0 := by nlinarith [sq_nonneg (b.1 - a.1), sq_nonneg (b.2 - a.2)]
  have h2 : (b.2 - a.2) ^ 2 = 0 := by nlinarith [sq_nonneg (b.1 - a.1), sq_nonneg (b.2 - a.2)]
  have h1 := pow_eq_zero_iff (two_ne_zero) |>.mp h1
  have h2 := pow_eq_zero_iff (two_ne_zero) |>.mp h2
  apply Prod.ext <;> linarith

/-- Walking from anywhere in the direction of a segment. -/
theorem walkAlong_eq (p a b : ℝ × ℝ) (d : ℝ) (hD : 0 < gap a b) :
    walkAlong p d a b = some (p.1 + d / gap a b * (b.1 - a.1), p.2 + d / gap a b * (b.2 - a.2)) := by
  have hne : (pt a).x ≠ (pt b).x ∨ (pt a).y ≠ (pt b).y := by
    by_contra hc
    push Not at hc
    unfold gap at hD
    have h1 : a.1 = b.1 := hc.1
    have h2 : a.2 = b.2 := hc.2
    rw [h1, h2] at hD
    simp at hD
  unfold walkAlong azimuth
  rw [if_pos hne]
  obtain ⟨k, hk⟩ := pyModR_cong (90 - atan2 ((pt b).y - (pt a).y) ((pt b).x - (pt a).x) * 180 / Real.pi + 180) 360
  obtain ⟨hc, hs⟩ := cos_reduce _ (atan2 ((pt b).y - (pt a).y) ((pt b).x - (pt a).x)) k
    (show pyModR (90 - atan2 ((pt b).y - (pt a).y) ((pt b).x - (pt a).x) * 180 / Real.pi + 180) 360 - 180
      = 90 - atan2 ((pt b).y - (pt a).y) ((pt b).x - (pt a).x) * 180 / Real.pi + 360 * k by rw [hk]; ring)
  have e1 := atan2_cos ((pt b).y - (pt a).y) ((pt b).x - (pt a).x)
  have e2 := atan2_sin ((pt b).y - (pt a).y) ((pt b).x - (pt a).x)
  have hg : Real.sqrt (((pt b).x - (pt a).x) ^ 2 + ((pt b).y - (pt a).y) ^ 2) = gap a b := rfl
  rw [hg] at e1 e2
  rw [Option.map_some]
  unfold walk
  simp only [hc, hs]
  have f1 : Real.cos (atan2 ((pt b).y - (pt a).y) ((pt b).x - (pt a).x)) = (b.1 - a.1) / gap a b := by
    rw [eq_div_iff hD.ne', mul_comm]; exact e1
  have f2 : Real.sin (atan2 ((pt b).y - (pt a).y) ((pt b).x - (pt a).x)) = (b.2 - a.2) / gap a b := by
    rw [eq_div_iff hD.ne', mul_comm]; exact e2
  rw [f1, f2]
  congr 2
  · simp only [pt]; field_simp
  · simp only [pt]; field_simp

theorem lineLength_nonneg : ∀ vs : List (ℝ × ℝ), 0 ≤ lineLength vs
  | [] => le_refl _
  | [_] => le_refl _
  | a :: b :: r => add_nonneg (gap_nonneg a b) (lineLength_nonneg (b :: r))

/-- Following the line from a position inside its first segment. -/
theorem At_inside (a b : ℝ × ℝ) (r : List (ℝ × ℝ)) {τ : ℝ} (h0 : 0 ≤ τ) (h1 : τ ≤ 1) {t : ℝ} {q : ℝ × ℝ}
    (h : At (between a b τ :: b :: r) t q) : At (a :: b :: r) (τ * gap a b + t) q := by
  rw [At, gap_between_right a b h1] at h
  rw [At]
  rcases h with ⟨u, u0, u1, hq, ht⟩ | h
  · left
    refine ⟨τ + u * (1 - τ), by nlinarith, by nlinarith, by rw [hq, between_between], by rw [ht]; ring⟩
  · right
    have : τ * gap a b + t - gap a b = t - (1 - τ) * gap a b := by ring
    rw [this]; exact h

theorem At_start (a b : ℝ × ℝ) (r : List (ℝ × ℝ)) : At (a :: b :: r) 0 a := by
  rw [At]
  exact Or.inl ⟨0, le_refl _, zero_le_one, (between_zero a b).symm, by ring⟩

/-- The end of the line is at its length. -/
theorem At_end : ∀ (a : ℝ × ℝ) (r : List (ℝ × ℝ)), At (a :: r) (lineLength (a :: r)) ((a :: r).getLast (by simp))
  | a, [] => ⟨rfl, rfl⟩
  | a, b :: r => by
    rw [At]
    right
    have : lineLength (a :: b :: r) - gap a b = lineLength (b :: r) := by rw [lineLength]; ring
    rw [this, List.getLast_cons (by simp)]
    exact At_end b r

/-! ### C91 -/

theorem lineLength_append_mono (p : ℝ × ℝ) : ∀ (vs : List (ℝ × ℝ)) (a b : ℝ × ℝ),
    lineLength (vs ++ [a, b]) = lineLength (vs ++ [a]) + gap a b
  | [], a, b => by simp [lineLength]
  | [c], a, b => by simp [lineLength]
  | c :: d :: r, a, b => by
    have := lineLength_append_mono p (d :: r) a b
    simp only [List.cons_append, lineLength] at this ⊢
    rw [this]; ring

theorem cumulengthGo_get : ∀ (r : List (ℝ × ℝ)) (a : ℝ × ℝ) (s : ℝ) (k : Nat), k < r.length →
    (cumulengthGo a s r)[k]? = some (s + lineLength ((a :: r).take (k + 2)))
  | [], _, _, _, h => by simp at h
  | b :: r, a, s, 0, _ => by
    simp [cumulengthGo, lineLength, dist_gap, add_comm]
  | b :: r, a, s, k + 1, h => by
    have := cumulengthGo_get r b (dist a b + s) k (by simpa using h)
    rw [cumulengthGo, List.getElem?_cons_succ, this, dist_gap]
    congr 1
    rw [List.take_succ_cons, List.take_succ_cons, List.take_succ_cons, lineLength]
    ring

theorem cumulengthGo_length : ∀ (r : List (ℝ × ℝ)) (a : ℝ × ℝ) (s : ℝ), (cumulengthGo a s r).length = r.length
  | [], _, _ => rfl
  | b :: r, a, s => by simp [cumulengthGo, cumulengthGo_length r]

/-- C91.  The cumulative lengths of a line are one number for each vertex: the length of the line up to that vertex. -/
theorem C91_cumulative (vs : List (ℝ × ℝ)) (h : vs ≠ []) : ∃ l, cumulength vs = .ok l ∧ l.length = vs.length ∧
    ∀ k, k < vs.length → l[k]? = some (lineLength (vs.take (k + 1))) := by
  obtain ⟨a, r, rfl⟩ := List.exists_cons_of_ne_nil h
  refine ⟨_, rfl, by simp [cumulengthGo_length], ?_⟩
  intro k hk
  cases k with
  | zero => simp [lineLength]
  | succ k =>
    rw [List.getElem?_cons_succ, cumulengthGo_get r a 0 k (by simpa using hk), zero_add]

theorem lineLength_take_succ (vs : List (ℝ × ℝ)) (k : Nat) : lineLength (vs.take k) ≤ lineLength (vs.take (k + 1)) := by
  induction vs generalizing k with
  | nil => simp
  | cons a r ih =>
    cases k with
    | zero => simp [lineLength]
    | succ k =>
      cases r with
      | nil => simp
      | cons b r =>
        cases k with
        | zero => simp [lineLength, gap_nonneg]
        | succ k =>
          have := ih (k + 1)
          simp only [List.take_succ_cons, lineLength] at this ⊢
          linarith

/-- C91.  The cumulative lengths never decrease, start at zero and end with the length of the line. -/
theorem C91_increasing (vs : List (ℝ × ℝ)) (h : vs ≠ []) : ∃ l, cumulength vs = .ok l ∧ l.head? = some 0 ∧
    l.getLast? = some (lineLength vs) ∧ ∀ k x y, l[k]? = some x → l[k + 1]? = some y → x ≤ y := by
  obtain ⟨l, hl, hlen, hget⟩ := C91_cumulative vs h
  have hpos : 0 < vs.length := List.length_pos_iff.mpr h
  refine ⟨l, hl, ?_, ?_, ?_⟩
  · rw [List.head?_eq_getElem?, hget 0 hpos]
    obtain ⟨a, r, rfl⟩ := List.exists_cons_of_ne_nil h
    simp [lineLength]
  · rw [List.getLast?_eq_getElem?, hlen, hget _ (by omega)]
    rw [Nat.sub_add_cancel hpos, List.take_length]
  · intro k x y hx hy
    have hk : k + 1 < vs.length := by
      have := (List.getElem?_eq_some_iff.mp hy).1; omega
    rw [hget k (by omega)] at hx
    rw [hget (k + 1) hk] at hy
    cases hx; cases hy
    exact lineLength_take_succ vs (k + 1)

theorem gap_triangle (a b c : ℝ × ℝ) : gap a c ≤ gap a b + gap b c := by
  have := (C86_metric_partial (pt a) (pt b) (pt c) rfl rfl).2.2.2
  rw [← dist_gap, ← dist_gap, ← dist_gap]
  exact this

/-- C91.  No line is shorter than the distance between its ends. -/
theorem C91_displacement (vs : List (ℝ × ℝ)) (h : vs ≠ []) : ∃ d, displacement vs = .ok d ∧ 0 ≤ d ∧ d ≤ lineLength vs := by
  obtain ⟨a, r, rfl⟩ := List.exists_cons_of_ne_nil h
  refine ⟨_, rfl, by rw [dist_gap]; exact gap_nonneg _ _, ?_⟩
  rw [dist_gap]
  clear h
  induction r generalizing a with
  | nil => simp [gap, lineLength]
  | cons b r ih =>
    rw [List.getLast_cons (by simp), lineLength]
    have h1 := gap_triangle a b ((b :: r).getLast (by simp))
    linarith [ih b]

theorem gap_345 : gap (0, 0) (3, 4) = 5 := by
  unfold gap
  rw [show ((3 : ℝ) - 0) ^ 2 + (4 - 0) ^ 2 = 5 ^ 2 by norm_num]
  exact Real.sqrt_sq (by norm_num)

example : cumulength [(0, 0), (3, 4), (3, 4)] = .ok [0, 5, 5] ∧ displacement [(0, 0), (3, 4), (0, 0)] = .ok 0 := by
  have h0 : gap (3, 4) (3, 4) = 0 := by simp [gap]
  have h1 : gap (0, 0) (0, 0) = 0 := by simp [gap]
  constructor
  · simp [cumulength, cumulengthGo, dist_gap, gap_345, h0]
  · simp [displacement, dist_gap, h1]

/-! ### C92 -/

/-- What holds at the start of each round of `to_npoints`. -/
structure StepInv (vs : List (ℝ × ℝ)) (step : ℝ) (s : Stepper) : Prop where
  posA : s.pos = s.segA
  segRem : s.segRemaining = gap s.segA s.segB
  suffix : ∀ t q, At (s.segA :: s.segB :: s.rest) t q → At vs (s.x + t) q
  total : s.x + lineLength (s.segA :: s.segB :: s.rest) = lineLength vs
  stepRem : s.stepRemaining = s.vertices.length * step - s.x
  pos : 0 < s.stepRemaining
  le : s.stepRemaining ≤ step
  placed : ∀ (k : Nat) (p : ℝ × ℝ), s.vertices[k]? = some p → At vs (k * step) p
  last : ∃ pre, vs = pre ++ (s.segB :: s.rest)

theorem stepLoop_ok (vs : List (ℝ × ℝ)) (n : Nat) (step : ℝ) (hstep : ((n : ℝ) - 1) * step = lineLength vs) :
    ∀ (fuel : Nat) (s : Stepper), StepInv vs step s → n - s.vertices.length + s.rest.length < fuel → s.vertices.length ≤ n →
      ∃ s', stepLoop (lineLength vs) step fuel s = some s' ∧ StepInv vs step s' ∧ s'.vertices.length ≤ n ∧
        lineLength vs - 1 / 10 ^ 8 ≤ s'.x
  | 0, _, _, h, _ => by omega
  | fuel + 1, s, inv, h, hn => by
    have hsp : 0 < step := lt_of_lt_of_le inv.pos inv.le
    rw [stepLoop]
    by_cases hx : s.x < lineLength vs - 1 / 10 ^ 8
    · rw [if_pos hx]
      by_cases hs : s.stepRemaining ≤ s.segRemaining
      · rw [if_pos hs]
        have hD : 0 < gap s.segA s.segB := by rw [← inv.segRem]; linarith [inv.pos]
        have hw := walkAlong_eq s.pos s.segA s.segB s.stepRemaining hD
        rw [hw]
        dsimp only
        set τ := s.stepRemaining / gap s.segA s.segB with hτ
        have hτ0 : 0 ≤ τ := div_nonneg inv.pos.le hD.le
        have hτ1 : τ ≤ 1 := by rw [hτ, div_le_one hD, ← inv.segRem]; exact hs
        have hτD : τ * gap s.segA s.segB = s.stepRemaining := by rw [hτ]; field_simp
        have hp : (s.pos.1 + τ * (s.segB.1 - s.segA.1), s.pos.2 + τ * (s.segB.2 - s.segA.2)) = between s.segA s.segB τ := by
          rw [inv.posA]; rfl
        rw [hp]
        have hlen : s.vertices.length + 1 ≤ n := by
          have h1 := inv.total
          rw [lineLength, ← inv.segRem] at h1
          have h2 := lineLength_nonneg (s.segB :: s.rest)
          have h3 := inv.stepRem
          have : (s.vertices.length : ℝ) * step ≤ ((n : ℝ) - 1) * step := by linarith
          have := le_of_mul_le_mul_right this hsp
          have : ((s.vertices.length + 1 : ℕ) : ℝ) ≤ n := by push_cast; linarith
          exact_mod_cast this
        apply stepLoop_ok vs n step hstep fuel
        · refine ⟨rfl, ?_, ?_, ?_, ?_, hsp, le_refl _, ?_, inv.last⟩
          · show s.segRemaining - s.stepRemaining = gap (between s.segA s.segB τ) s.segB
            rw [gap_between_right _ _ hτ1, inv.segRem, ← hτD]; ring
          · intro t q hq
            have := inv.suffix _ _ (At_inside _ _ _ hτ0 hτ1 hq)
            rw [hτD] at this
            show At vs (s.x + s.stepRemaining + t) q
            rw [add_assoc]; exact this
          · show s.x + s.stepRemaining + lineLength (between s.segA s.segB τ :: s.segB :: s.rest) = lineLength vs
            rw [lineLength, gap_between_right _ _ hτ1, ← inv.total, lineLength, ← hτD]; ring
          · show step = ((s.vertices ++ [between s.segA s.segB τ]).length : ℝ) * step - (s.x + s.stepRemaining)
            rw [List.length_append, inv.stepRem]; push_cast [List.length_singleton]; ring
          · intro k p hk
            change (s.vertices ++ [between s.segA s.segB τ])[k]? = some p at hk
            rcases lt_or_ge k s.vertices.length with hlt | hge
            · rw [List.getElem?_append_left hlt] at hk; exact inv.placed k p hk
            · rw [List.getElem?_append_right hge] at hk
              have hk0 : k = s.vertices.length := by
                have := (List.getElem?_eq_some_iff.mp hk).1
                simp at this; omega
              subst hk0
              simp at hk
              subst hk
              have h0 : At (between s.segA s.segB τ :: s.segB :: s.rest) 0 (between s.segA s.segB τ) := At_start _ _ _
              have := inv.suffix _ _ (At_inside _ _ _ hτ0 hτ1 h0)
              rw [hτD, add_zero, inv.stepRem] at this
              convert this using 1
              ring
        · show n - (s.vertices ++ [between s.segA s.segB τ]).length + s.rest.length < fuel
          rw [List.length_append, List.length_singleton]; omega
        · show (s.vertices ++ [between s.segA s.segB τ]).length ≤ n
          rw [List.length_append, List.length_singleton]; exact hlen
      · rw [if_neg hs]
        cases hr : s.rest with
        | nil =>
          exfalso
          have h1 := inv.total
          have h0 : lineLength [s.segB] = 0 := rfl
          rw [hr, lineLength, ← inv.segRem, h0, add_zero] at h1
          have h3 := inv.stepRem
          have h4 := inv.le
          push Not at hs
          have h5 : ((n : ℝ) - 1) * step < s.vertices.length * step := by linarith
          have h6 := lt_of_mul_lt_mul_right h5 hsp.le
          have h7 : (n : ℝ) < ((s.vertices.length + 1 : ℕ) : ℝ) := by push_cast; linarith
          have h8 : n < s.vertices.length + 1 := by exact_mod_cast h7
          have h9 : s.vertices.length = n := by omega
          rw [h9] at h3
          have : lineLength vs ≤ s.x := by rw [← hstep]; linarith
          have : (0 : ℝ) < 1 / 10 ^ 8 := by norm_num
          linarith
        | cons c r =>
          push Not at hs
          apply stepLoop_ok vs n step hstep fuel
          · refine ⟨rfl, dist_gap _ _, ?_, ?_, ?_, ?_, ?_, inv.placed, ?_⟩
            · intro t q hq
              show At vs (s.x + s.segRemaining + t) q
              rw [add_assoc]
              apply inv.suffix
              rw [hr, At]
              right
              rw [inv.segRem, add_sub_cancel_left]; exact hq
            · show s.x + s.segRemaining + lineLength (s.segB :: c :: r) = lineLength vs
              rw [← inv.total, hr, inv.segRem]; conv_rhs => rw [lineLength]
              ring
            · show s.stepRemaining - s.segRemaining = s.vertices.length * step - (s.x + s.segRemaining)
              rw [inv.stepRem]; ring
            · show 0 < s.stepRemaining - s.segRemaining
              linarith
            · show s.stepRemaining - s.segRemaining ≤ step
              have := gap_nonneg s.segA s.segB
              rw [← inv.segRem] at this
              linarith [inv.le]
            · obtain ⟨pre, hpre⟩ := inv.last
              exact ⟨pre ++ [s.segB], by rw [hpre, hr]; simp⟩
          · rw [hr] at h; simp only [List.length_cons] at h ⊢; omega
          · exact hn
    · rw [if_neg hx]
      exact ⟨s, rfl, inv, hn, not_lt.mp hx⟩

theorem At_vertex : ∀ (pre : List (ℝ × ℝ)) (b : ℝ × ℝ) (r : List (ℝ × ℝ)),
    At (pre ++ b :: r) (lineLength (pre ++ b :: r) - lineLength (b :: r)) b
  | [], b, [] => by simp [At, lineLength]
  | [], b, c :: r => by rw [List.nil_append, sub_self]; exact At_start b c r
  | a :: pre, b, r => by
    have ih := At_vertex pre b r
    cases hp : pre ++ b :: r with
    | nil => simp at hp
    | cons c r' =>
      rw [hp] at ih
      rw [List.cons_append, hp, At]
      right
      rw [lineLength]
      convert ih using 1
      ring

theorem total_eq (a b : ℝ × ℝ) (r : List (ℝ × ℝ)) :
    (0 :: cumulengthGo a 0 (b :: r)).getLast (by simp) = lineLength (a :: b :: r) := by
  obtain ⟨l, hl, -, h, -⟩ := C91_increasing (a :: b :: r) (by simp)
  unfold cumulength at hl
  cases hl
  rw [List.getLast?_eq_some_getLast (by simp)] at h
  exact Option.some.inj h

/-- C92, partial (the line must be longer than 1e-8 times the number of gaps, and rounding is not modelled).  `to_npoints n`
returns exactly `n` points.  The k-th is on the line, at k gaps of equal length from its start; only the last one may come up
to 1e-8 before the end of the line, and it does not if the last segment is longer than that. -/
theorem C92_equal_spacing_partial (n : Nat) (hn : 2 ≤ n) (vs : List (ℝ × ℝ)) (hL : ((n : ℝ) - 1) / 10 ^ 8 < lineLength vs) :
    ∃ l, (∀ fuel, n + vs.length ≤ fuel → toNPoints n fuel vs = some l) ∧ l.length = n ∧
      ∀ (k : Nat) (p : ℝ × ℝ), l[k]? = some p → ∃ s, At vs s p ∧ s ≤ k * (lineLength vs / ((n : ℝ) - 1)) ∧
        k * (lineLength vs / ((n : ℝ) - 1)) ≤ s + 1 / 10 ^ 8 ∧
        ((k + 1 < n ∨ ∀ pre a b, vs = pre ++ [a, b] → 1 / 10 ^ 8 < gap a b) → s = k * (lineLength vs / ((n : ℝ) - 1))) := by
  have hn' : (1 : ℝ) ≤ (n : ℝ) - 1 := by
    have : (2 : ℝ) ≤ n := by exact_mod_cast hn
    linarith
  cases vs with
  | nil => simp [lineLength] at hL; linarith
  | cons a vs =>
    cases vs with
    | nil => simp [lineLength] at hL; linarith
    | cons b r =>
      set L := lineLength (a :: b :: r) with hLdef
      set step := L / ((n : ℝ) - 1) with hst
      have hstep : ((n : ℝ) - 1) * step = L := by rw [hst]; field_simp
      have hsbig : 1 / 10 ^ 8 < step := by rw [hst, lt_div_iff₀ (by linarith)]; linarith
      have hsp : 0 < step := lt_trans (by norm_num) hsbig
      have inv0 : StepInv (a :: b :: r) step ⟨0, a, a, b, r, dist a b, step, [a]⟩ := by
        refine ⟨rfl, dist_gap _ _, ?_, ?_, ?_, hsp, le_refl _, ?_, ⟨[a], rfl⟩⟩
        · intro t q h; show At _ (0 + t) q; rw [zero_add]; exact h
        · exact zero_add _
        · show step = (([a] : List (ℝ × ℝ)).length : ℝ) * step - 0
          simp
        · intro k p hk
          cases k with
          | zero =>
            simp at hk; subst hk
            rw [Nat.cast_zero, zero_mul]; exact At_start _ _ _
          | succ k => simp at hk
      -- the number of rounds does not matter once it is enough
      have mono : ∀ (fuel : Nat) (s s' : Stepper), stepLoop L step fuel s = some s' →
          ∀ fuel', fuel ≤ fuel' → stepLoop L step fuel' s = some s' := by
        intro fuel
        induction fuel with
        | zero => intro s s' h; rw [stepLoop] at h; cases h
        | succ fuel ih =>
          intro s s' h fuel' hf
          obtain ⟨f, rfl⟩ : ∃ f, fuel' = f + 1 := ⟨fuel' - 1, by omega⟩
          rw [stepLoop] at h ⊢
          by_cases h1 : s.x < L - 1 / 10 ^ 8
          · rw [if_pos h1] at h ⊢
            by_cases h2 : s.stepRemaining ≤ s.segRemaining
            · rw [if_pos h2] at h ⊢
              cases hw : walkAlong s.pos s.stepRemaining s.segA s.segB with
              | none => rw [hw] at h; cases h
              | some p => rw [hw] at h; exact ih _ _ h f (by omega)
            · rw [if_neg h2] at h ⊢
              cases hr : s.rest with
              | nil => rw [hr] at h; exact ih _ _ h f (by omega)
              | cons c r => rw [hr] at h; exact ih _ _ h f (by omega)
          · rw [if_neg h1] at h ⊢; exact h
      obtain ⟨s', hs', inv, hlen, hx⟩ := stepLoop_ok (a :: b :: r) n step hstep (n + (a :: b :: r).length) _ inv0
        (by simp only [List.length_singleton, List.length_cons]; omega) (by simp only [List.length_singleton]; omega)
      have hk1 : n ≤ s'.vertices.length + 1 := by
        have h3 := inv.stepRem
        have h4 := inv.pos
        have h5 : ((n : ℝ) - 2) * step < s'.vertices.length * step := by
          have : ((n : ℝ) - 2) * step = L - step := by rw [← hstep]; ring
          linarith
        have h6 := lt_of_mul_lt_mul_right h5 hsp.le
        have h7 : (n : ℝ) < ((s'.vertices.length + 2 : ℕ) : ℝ) := by push_cast; linarith
        have h8 : n < s'.vertices.length + 2 := by exact_mod_cast h7
        omega
      refine ⟨if s'.vertices.length + 1 = n then s'.vertices ++ [s'.segB] else s'.vertices, ?_, ?_, ?_⟩
      · intro fuel hf
        unfold toNPoints
        dsimp only
        rw [total_eq, ← hLdef, ← hst, mono _ _ _ hs' fuel hf]
      · by_cases hc : s'.vertices.length + 1 = n
        · rw [if_pos hc]; simpa using hc
        · rw [if_neg hc]; omega
      · intro k p hk
        have exact_case : s'.vertices[k]? = some p → ∃ s, At (a :: b :: r) s p ∧ s ≤ k * step ∧ k * step ≤ s + 1 / 10 ^ 8 ∧
            ((k + 1 < n ∨ ∀ pre a' b', a :: b :: r = pre ++ [a', b'] → 1 / 10 ^ 8 < gap a' b') → s = k * step) :=
          fun h => ⟨k * step, inv.placed k p h, le_refl _, by norm_num, fun _ => rfl⟩
        by_cases hc : s'.vertices.length + 1 = n
        · rw [if_pos hc] at hk
          rcases lt_or_ge k s'.vertices.length with hlt | hge
          · rw [List.getElem?_append_left hlt] at hk; exact exact_case hk
          · rw [List.getElem?_append_right hge] at hk
            have hk0 : k = s'.vertices.length := by
              have := (List.getElem?_eq_some_iff.mp hk).1
              simp at this; omega
            rw [hk0, Nat.sub_self] at hk
            simp at hk
            subst hk
            obtain ⟨pre, hpre⟩ := inv.last
            have hat := At_vertex pre s'.segB s'.rest
            rw [← hpre, ← hLdef] at hat
            have hkL : (k : ℝ) * step = L := by
              rw [← hstep]
              have : (k : ℝ) + 1 = n := by rw [hk0]; exact_mod_cast hc
              rw [← this]; ring
            have ht := inv.total
            rw [lineLength] at ht
            have hg := gap_nonneg s'.segA s'.segB
            have hr0 := lineLength_nonneg (s'.segB :: s'.rest)
            refine ⟨_, hat, by linarith, by linarith, ?_⟩
            intro hor
            rcases hor with hor | hor
            · omega
            · cases hrest : s'.rest with
              | nil => rw [hkL]; simp [lineLength]
              | cons c r' =>
                exfalso
                -- the last segment is still ahead
                have key : ∀ (r' : List (ℝ × ℝ)) (d c : ℝ × ℝ) (pre : List (ℝ × ℝ)), a :: b :: r = pre ++ d :: c :: r' →
                    1 / 10 ^ 8 < lineLength (d :: c :: r') := by
                  intro r'
                  induction r' with
                  | nil => intro d c pre h; have := hor pre d c h; simpa [lineLength] using this
                  | cons e r' ih =>
                    intro d c pre h
                    have := ih c e (pre ++ [d]) (by rw [h]; simp)
                    rw [lineLength]
                    linarith [gap_nonneg d c]
                have := key r' s'.segB c pre (by rw [hpre, hrest])
                rw [hrest] at ht
                linarith
        · rw [if_neg hc] at hk; exact exact_case hk

/-- Three points on a line of two segments. -/
example : ∃ l, toNPoints 3 100 [(0, 0), (3, 4), (3, 4 + 5)] = some l ∧ l.length = 3 := by
  have h2 : gap (3, 4) (3, 4 + 5) = 5 := by
    unfold gap
    rw [show ((3 : ℝ) - 3) ^ 2 + (4 + 5 - 4) ^ 2 = 5 ^ 2 by norm_num]
    exact Real.sqrt_sq (by norm_num)
  obtain ⟨l, h, hl, -⟩ := C92_equal_spacing_partial 3 (by norm_num) [(0, 0), (3, 4), (3, 4 + 5)]
    (by simp only [lineLength, gap_345, h2]; norm_num)
  exact ⟨l, h 100 (by simp), hl⟩

/-- **C92 is violated for very short lines**: on a line of length 1e-8, three points are asked for and one is returned. -/
theorem C92_violated_short (fuel : Nat) : toNPoints 3 (fuel + 1) [(0, 0), (1 / 10 ^ 8, 0)] = some [(0, 0)] := by
  have hg : gap (0, 0) (1 / 10 ^ 8, 0) = 1 / 10 ^ 8 := by
    unfold gap
    rw [show ((1 : ℝ) / 10 ^ 8 - 0) ^ 2 + (0 - 0) ^ 2 = (1 / 10 ^ 8) ^ 2 by ring]
    exact Real.sqrt_sq (by norm_num)
  unfold toNPoints
  dsimp only
  rw [total_eq]
  have hL : lineLength [((0 : ℝ), (0 : ℝ)), (1 / 10 ^ 8, 0)] = 1 / 10 ^ 8 := by simp only [lineLength, hg, add_zero]
  rw [hL, stepLoop, if_neg (by simp)]
  simp

/-! ### C93 -/

/-- Second phase of a segment: the last point placed is on it. -/
theorem segLoop_ok (vs : List (ℝ × ℝ)) (dx : ℝ) (hdx : 0 < dx) (a b : ℝ × ℝ) (S : ℝ)
    (hat : ∀ t, 0 ≤ t → t ≤ 1 → At vs (S + t * gap a b) (between a b t)) (hD : 0 < gap a b) :
    ∀ (fuel : Nat) (τ : ℝ) (acc : List (ℝ × ℝ)), 0 ≤ τ → τ ≤ 1 → gap a b - τ * gap a b < fuel * dx →
      S + τ * gap a b = ((acc.length : ℝ) - 1) * dx → (∀ (k : Nat) (p : ℝ × ℝ), acc[k]? = some p → At vs (k * dx) p) →
      ∃ w, segLoop dx a b (fuel + 1) (τ * gap a b) ⟨0, between a b τ, acc⟩ = some w ∧ (0 < gap a b → w.pt0 = b) ∧
        0 ≤ w.remainder ∧ w.remainder < dx ∧ S + gap a b = ((w.vertices.length : ℝ) - 1) * dx + w.remainder ∧
        ∀ (k : Nat) (p : ℝ × ℝ), w.vertices[k]? = some p → At vs (k * dx) p
  | fuel, τ, acc, h0, h1, hf, hS, hacc => by
    rw [segLoop, dist_gap]
    by_cases hp : τ * gap a b < gap a b
    · rw [if_pos hp]
      simp only [dist_gap, gap_between_right a b h1]
      by_cases hd : dx ≤ (1 - τ) * gap a b
      · rw [if_pos hd, walkAlong_eq _ _ _ _ hD]
        dsimp only
        cases fuel with
        | zero => rw [Nat.cast_zero, zero_mul] at hf; linarith
        | succ fuel =>
          have hp' : ((between a b τ).1 + (dx - 0) / gap a b * (b.1 - a.1), (between a b τ).2 + (dx - 0) / gap a b * (b.2 - a.2))
              = between a b (τ + dx / gap a b) := by
            unfold between; simp only; congr 1 <;> ring
          have hτD : τ * gap a b + (dx - 0) = (τ + dx / gap a b) * gap a b := by field_simp; ring
          rw [hp', hτD]
          apply segLoop_ok vs dx hdx a b S hat hD fuel
          · positivity
          · have : dx / gap a b ≤ 1 - τ := by rw [div_le_iff₀ hD]; exact hd
            linarith
          · rw [← hτD]; push_cast at hf; linarith
          · rw [← hτD, List.length_append, List.length_singleton]; push_cast; linarith
          · intro k p hk
            rcases lt_or_ge k acc.length with hlt | hge
            · rw [List.getElem?_append_left hlt] at hk; exact hacc k p hk
            · rw [List.getElem?_append_right hge] at hk
              have hk0 : k = acc.length := by
                have := (List.getElem?_eq_some_iff.mp hk).1
                simp at this; omega
              subst hk0
              simp at hk
              subst hk
              have h1' : τ + dx / gap a b ≤ 1 := by
                have : dx / gap a b ≤ 1 - τ := by rw [div_le_iff₀ hD]; exact hd
                linarith
              have := hat (τ + dx / gap a b) (by positivity) h1'
              rw [← hτD] at this
              convert this using 1
              linarith
      · rw [if_neg hd]
        cases fuel with
        | zero => rw [Nat.cast_zero, zero_mul] at hf; linarith
        | succ fuel =>
          rw [segLoop, dist_gap, if_neg (lt_irrefl _)]
          refine ⟨_, rfl, fun _ => rfl, by nlinarith [gap_nonneg a b], lt_of_not_ge hd, ?_, hacc⟩
          show S + gap a b = ((acc.length : ℝ) - 1) * dx + (1 - τ) * gap a b
          linarith
    · rw [if_neg hp]
      have hτ : τ = 1 := by
        have h2 : gap a b ≤ τ * gap a b := not_lt.mp hp
        have : 1 ≤ τ := by
          by_contra hc; push Not at hc; nlinarith
        linarith
      refine ⟨_, rfl, fun _ => by rw [hτ, between_one], le_refl _, hdx, ?_, hacc⟩
      show S + gap a b = ((acc.length : ℝ) - 1) * dx + 0
      rw [← hS, hτ]; ring

/-- All segments are at least as long as the spacing, or have no length. -/
def LongSegments (dx : ℝ) : List (ℝ × ℝ) → Prop
  | a :: b :: r => (gap a b = 0 ∨ dx ≤ gap a b) ∧ LongSegments dx (b :: r)
  | _ => True

theorem lineLoop_ok (vs : List (ℝ × ℝ)) (dx : ℝ) (hdx : 0 < dx) (fuel : Nat) : ∀ (l : List (ℝ × ℝ)) (a : ℝ × ℝ) (S : ℝ) (w : Walker),
    (∀ t q, At (a :: l) t q → At vs (S + t) q) → (lineLength (a :: l) + 2 * dx < fuel * dx) → w.pt0 = a → 0 ≤ w.remainder →
    w.remainder < dx → S = ((w.vertices.length : ℝ) - 1) * dx + w.remainder →
    (∀ (k : Nat) (p : ℝ × ℝ), w.vertices[k]? = some p → At vs (k * dx) p) →
    (LongSegments dx (a :: l) ∨ (w.remainder = 0 ∧ LongSegments dx l)) →
    ∃ w', lineLoop dx fuel (a :: l) w = some w' ∧ 0 ≤ w'.remainder ∧ w'.remainder < dx ∧
      S + lineLength (a :: l) = ((w'.vertices.length : ℝ) - 1) * dx + w'.remainder ∧
      ∀ (k : Nat) (p : ℝ × ℝ), w'.vertices[k]? = some p → At vs (k * dx) p
  | [], a, S, w, _, _, _, h0, h1, hS, hacc, _ => ⟨w, rfl, h0, h1, (add_zero S).trans hS, hacc⟩
  | b :: r, a, S, w, hat, hf, hpt, h0, h1, hS, hacc, hlong => by
    have hr0 := lineLength_nonneg (b :: r)
    rw [lineLength] at hf
    obtain ⟨f, rfl⟩ : ∃ f, fuel = f + 2 := by
      have hg := gap_nonneg a b
      have : (2 : ℝ) * dx < fuel * dx := by linarith
      have := lt_of_mul_lt_mul_right this hdx.le
      have : 2 < fuel := by exact_mod_cast this
      exact ⟨fuel - 2, by omega⟩
    push_cast at hf
    have hlong' : LongSegments dx (b :: r) := by
      rcases hlong with h | h
      · exact h.2
      · exact h.2
    have hcond : gap a b = 0 ∨ dx ≤ gap a b ∨ w.remainder = 0 := by
      rcases hlong with h | h
      · rcases h.1 with h | h
        · exact Or.inl h
        · exact Or.inr (Or.inl h)
      · exact Or.inr (Or.inr h.1)
    have hatb : ∀ t q, At (b :: r) t q → At vs (S + gap a b + t) q := by
      intro t q hq
      rw [add_assoc]
      apply hat
      rw [At]
      right
      rw [add_sub_cancel_left]; exact hq
    have hats : ∀ t, 0 ≤ t → t ≤ 1 → At vs (S + t * gap a b) (between a b t) := by
      intro t t0 t1
      apply hat
      rw [At]
      exact Or.inl ⟨t, t0, t1, rfl, rfl⟩
    -- one segment
    have hseg : ∃ w', segLoop dx a b (f + 2) 0 w = some w' ∧ w'.pt0 = b ∧ 0 ≤ w'.remainder ∧ w'.remainder < dx ∧
        S + gap a b = ((w'.vertices.length : ℝ) - 1) * dx + w'.remainder ∧
        ∀ (k : Nat) (p : ℝ × ℝ), w'.vertices[k]? = some p → At vs (k * dx) p := by
      rw [segLoop, dist_gap]
      by_cases hD : 0 < gap a b
      · rw [if_pos hD, hpt, dist_gap]
        by_cases hd : dx ≤ gap a b
        · rw [if_pos hd, walkAlong_eq _ _ _ _ hD]
          dsimp only
          have hp' : (a.1 + (dx - w.remainder) / gap a b * (b.1 - a.1), a.2 + (dx - w.remainder) / gap a b * (b.2 - a.2))
              = between a b ((dx - w.remainder) / gap a b) := rfl
          have hτD : 0 + (dx - w.remainder) = (dx - w.remainder) / gap a b * gap a b := by field_simp; ring
          have ht0 : 0 ≤ (dx - w.remainder) / gap a b := div_nonneg (by linarith) hD.le
          have ht1 : (dx - w.remainder) / gap a b ≤ 1 := by rw [div_le_one hD]; linarith
          rw [hp', hτD]
          obtain ⟨w', e1, e2, e3, e4, e5, e6⟩ := segLoop_ok vs dx hdx a b S hats hD f ((dx - w.remainder) / gap a b)
            (w.vertices ++ [between a b ((dx - w.remainder) / gap a b)]) ht0 ht1 (by rw [← hτD]; nlinarith)
            (by rw [← hτD, List.length_append, List.length_singleton]; push_cast; linarith)
            (by
              intro k p hk
              rcases lt_or_ge k w.vertices.length with hlt | hge
              · rw [List.getElem?_append_left hlt] at hk; exact hacc k p hk
              · rw [List.getElem?_append_right hge] at hk
                have hk0 : k = w.vertices.length := by
                  have := (List.getElem?_eq_some_iff.mp hk).1
                  simp at this; omega
                subst hk0
                simp at hk
                subst hk
                have := hats _ ht0 ht1
                rw [← hτD] at this
                convert this using 1
                linarith)
          exact ⟨w', e1, e2 hD, e3, e4, e5, e6⟩
        · rw [if_neg hd]
          have hr : w.remainder = 0 := by
            rcases hcond with h | h | h
            · linarith
            · exact absurd h hd
            · exact h
          rw [segLoop, dist_gap, if_neg (lt_irrefl _)]
          refine ⟨_, rfl, rfl, hD.le, lt_of_not_ge hd, ?_, hacc⟩
          show S + gap a b = ((w.vertices.length : ℝ) - 1) * dx + gap a b
          rw [hS, hr]; ring
      · have hz : gap a b = 0 := le_antisymm (not_lt.mp hD) (gap_nonneg _ _)
        rw [if_neg hD]
        refine ⟨w, rfl, ?_, h0, h1, ?_, hacc⟩
        · rw [hpt]; exact eq_of_gap hz
        · rw [hz, add_zero]; exact hS
    obtain ⟨w', e1, e2, e3, e4, e5, e6⟩ := hseg
    rw [lineLoop, e1]
    dsimp only
    obtain ⟨w'', f1, f2, f3, f4, f5⟩ := lineLoop_ok vs dx hdx (f + 2) r b (S + gap a b) w' hatb
      (by push_cast; linarith [gap_nonneg a b]) e2 e3 e4 e5 e6 (Or.inl hlong')
    refine ⟨w'', f1, f2, f3, ?_, f5⟩
    rw [lineLength, ← add_assoc]; exact f4

/-- C93, partial (all segments after the first must have no length or at least the length of the spacing; rounding is not
modelled).  `to_points dx` returns the positions at lengths 0, dx, 2 dx, ... from the start of the line, as many as there are. -/
theorem C93_spacing_partial (dx : ℝ) (hdx : 0 < dx) (a : ℝ × ℝ) (r : List (ℝ × ℝ)) (hlong : LongSegments dx r) (fuel : Nat)
    (hf : lineLength (a :: r) + 2 * dx < fuel * dx) :
    ∃ l, toPoints dx fuel (a :: r) = some l ∧ (∀ (k : Nat) (p : ℝ × ℝ), l[k]? = some p → At (a :: r) (k * dx) p) ∧
      ∀ k : Nat, k < l.length ↔ k * dx ≤ lineLength (a :: r) := by
  obtain ⟨w, h1, h2, h3, h4, h5⟩ := lineLoop_ok (a :: r) dx hdx fuel r a 0 ⟨0, a, [a]⟩
    (fun t q h => by rw [zero_add]; exact h) hf rfl (le_refl _) hdx (by simp)
    (by
      intro k p hk
      cases k with
      | zero =>
        simp at hk; subst hk
        rw [Nat.cast_zero, zero_mul]
        cases r with
        | nil => exact ⟨rfl, rfl⟩
        | cons b r => exact At_start _ _ _
      | succ k => simp at hk) (Or.inr ⟨rfl, hlong⟩)
  refine ⟨w.vertices, by simp only [toPoints]; rw [h1]; rfl, h5, ?_⟩
  intro k
  rw [zero_add] at h4
  rw [h4]
  constructor
  · intro hk
    have : (k : ℝ) ≤ (w.vertices.length : ℝ) - 1 := by
      have : ((k + 1 : ℕ) : ℝ) ≤ w.vertices.length := by exact_mod_cast hk
      push_cast at this; linarith
    nlinarith
  · intro hk
    have : ((k : ℝ) - w.vertices.length) * dx < 0 := by nlinarith
    have : (k : ℝ) < w.vertices.length := by
      by_contra hc; push Not at hc; nlinarith
    exact_mod_cast this

theorem gap_x (x y : ℝ) (h : x ≤ y) : gap (x, 0) (y, 0) = y - x := by
  unfold gap
  rw [show (y - x) ^ 2 + ((0 : ℝ) - 0) ^ 2 = (y - x) ^ 2 by ring]
  exact Real.sqrt_sq (by linarith)

/-- Points every 2 units on a line of length 8 with a corner at 5. -/
example : ∃ l, toPoints 2 7 [(0, 0), (3, 4), (3, 4), (6, 4)] = some l ∧ l.length = 5 := by
  have g2 : gap (3, 4) (3, 4) = 0 := by simp [gap]
  have g3 : gap (3, 4) (6, 4) = 3 := by
    unfold gap
    rw [show ((6 : ℝ) - 3) ^ 2 + (4 - 4) ^ 2 = 3 ^ 2 by norm_num]
    exact Real.sqrt_sq (by norm_num)
  have hl : lineLength [(0, 0), (3, 4), (3, 4), (6, 4)] = 8 := by simp only [lineLength, gap_345, g2, g3]; norm_num
  obtain ⟨l, h, -, hk⟩ := C93_spacing_partial 2 (by norm_num) (0, 0) [(3, 4), (3, 4), (6, 4)]
    ⟨Or.inl g2, Or.inr (by rw [g3]; norm_num), trivial⟩ 7 (by rw [hl]; norm_num)
  rw [hl] at hk
  refine ⟨l, h, ?_⟩
  have h4 := (hk 4).mpr (by norm_num)
  have h5 : ¬ 5 < l.length := fun h => by have := (hk 5).mp h; norm_num at this
  omega

/-- **C93 is violated when a later segment is shorter than the spacing**: of the positions every 5 units along the line from
(0, 0) by (3, 0) to (6, 0), the one at length 5 is missing. -/
theorem C93_violated_short_segments (fuel : Nat) : toPoints 5 (fuel + 2) [(0, 0), (3, 0), (6, 0)] = some [(0, 0)] ∧
    At [(0, 0), (3, 0), (6, 0)] 5 (5, 0) := by
  have g1 : gap (0, 0) (3, 0) = 3 := by rw [gap_x _ _ (by norm_num)]; norm_num
  have g2 : gap (3, 0) (6, 0) = 3 := by rw [gap_x _ _ (by norm_num)]; norm_num
  constructor
  · unfold toPoints
    simp only [lineLoop, segLoop, dist_gap, g1, g2]
    norm_num [g2]
  · rw [At, At]
    right; left
    refine ⟨2 / 3, by norm_num, by norm_num, ?_, ?_⟩
    · unfold between; norm_num
    · rw [g1, g2]; norm_num

end Karta.Along
