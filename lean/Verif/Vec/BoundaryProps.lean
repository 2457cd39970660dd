import Verif.Vec.WindProps

/-!
Property C62 for polygons of any shape: what `contains` answers for points on the boundary.
-/

namespace Karta.Vec

/-! ### Specification -/

/-- Spec: for all small enough positive numbers. -/
def Soon (P : ℚ → Prop) : Prop := ∃ ε : ℚ, 0 < ε ∧ ∀ δ, 0 < δ → δ < ε → P δ

/-- Spec: the points `(x + δ, y + η)` that are near `(x, y)` to its right, and much less above it than to its
right, or level with it. -/
def JustRight (p : Pt) (P : Pt → Prop) : Prop :=
  Soon fun δ => P ⟨p.x + δ, p.y⟩ ∧ Soon fun η => P ⟨p.x + δ, p.y + η⟩

/-! ### Lemmas -/

theorem Soon.and {P Q : ℚ → Prop} (hP : Soon P) (hQ : Soon Q) : Soon fun δ => P δ ∧ Q δ := by
  obtain ⟨e, he, h1⟩ := hP
  obtain ⟨f, hf, h2⟩ := hQ
  exact ⟨min e f, lt_min he hf, fun δ h0 h => ⟨h1 δ h0 (lt_of_lt_of_le h (min_le_left _ _)), h2 δ h0 (lt_of_lt_of_le h (min_le_right _ _))⟩⟩

theorem Soon.mono {P Q : ℚ → Prop} (hP : Soon P) (h : ∀ δ, 0 < δ → P δ → Q δ) : Soon Q := by
  obtain ⟨e, he, h1⟩ := hP
  exact ⟨e, he, fun δ h0 hd => h δ h0 (h1 δ h0 hd)⟩

theorem Soon.of_forall {P : ℚ → Prop} (h : ∀ δ, 0 < δ → P δ) : Soon P := ⟨1, one_pos, fun δ h0 _ => h δ h0⟩

theorem Soon.exists {P : ℚ → Prop} (h : Soon P) : ∃ δ, 0 < δ ∧ P δ := by
  obtain ⟨e, he, h1⟩ := h
  exact ⟨e / 2, by linarith, h1 _ (by linarith) (by linarith)⟩

theorem JustRight.and {p : Pt} {P Q : Pt → Prop} (hP : JustRight p P) (hQ : JustRight p Q) :
    JustRight p fun q => P q ∧ Q q := by
  unfold JustRight at *
  refine (Soon.and hP hQ).mono ?_
  rintro δ - ⟨⟨a, b⟩, c, d⟩
  exact ⟨⟨a, c⟩, b.and d⟩

theorem JustRight.mono {p : Pt} {P Q : Pt → Prop} (hP : JustRight p P) (h : ∀ q, P q → Q q) : JustRight p Q :=
  Soon.mono hP fun _ _ k => ⟨h _ k.1, Soon.mono k.2 fun _ _ k2 => h _ k2⟩

theorem JustRight.of_forall {p : Pt} {P : Pt → Prop} (h : ∀ q, P q) : JustRight p P :=
  Soon.of_forall fun _ _ => ⟨h _, Soon.of_forall fun _ _ => h _⟩

theorem JustRight.all {β : Type} {p : Pt} {P : β → Pt → Prop} (l : List β) (h : ∀ e ∈ l, JustRight p (P e)) :
    JustRight p fun q => ∀ e ∈ l, P e q := by
  induction l with
  | nil => exact JustRight.of_forall (by simp)
  | cons a l ih =>
    refine ((h a (by simp)).and (ih fun e he => h e (by simp [he]))).mono ?_
    rintro q ⟨h1, h2⟩ e he
    rcases List.mem_cons.1 he with rfl | he
    · exact h1
    · exact h2 e he

/-- A positive linear expression stays positive. -/
theorem soon_pos {c : ℚ} (hc : 0 < c) (k : ℚ) : Soon fun δ => 0 < c + k * δ := by
  refine ⟨c / (|k| + 1), by positivity, ?_⟩
  intro δ h0 h
  rw [lt_div_iff₀ (by positivity)] at h
  have := neg_abs_le k
  nlinarith

theorem just_pos {p : Pt} {c : ℚ} (hc : 0 < c) (k m : ℚ) : JustRight p fun q => 0 < c + k * (q.x - p.x) + m * (q.y - p.y) := by
  refine (soon_pos hc k).mono ?_
  intro δ _ h
  refine ⟨by simpa using h, (soon_pos h m).mono ?_⟩
  intro η _ h2
  simpa using h2

/-- The points just to the right are on the right-hand side of a line that is not horizontal. -/
theorem just_neg {p : Pt} {c k m : ℚ} (hc : c ≤ 0) (hk : k < 0) : JustRight p fun q => c + k * (q.x - p.x) + m * (q.y - p.y) < 0 := by
  refine Soon.of_forall ?_
  intro δ h0
  have h : 0 < -(c + k * δ) := by nlinarith
  refine ⟨?_, (soon_pos h (-m)).mono ?_⟩
  · simp only [add_sub_cancel_left, sub_self, mul_zero, add_zero]; linarith
  · intro η _ h2
    simp only [add_sub_cancel_left]; linarith

theorem just_le {p : Pt} (c : ℚ) : JustRight p fun q => (c ≤ q.y ↔ c ≤ p.y) := by
  by_cases h : c ≤ p.y
  · refine Soon.of_forall fun δ _ => ⟨Iff.rfl, Soon.of_forall fun η h0 => ?_⟩
    simp only [h, iff_true]; linarith
  · refine (just_pos (p := p) (c := c - p.y) (by linarith [not_le.1 h]) 0 (-1)).mono ?_
    intro q hq
    simp only [h, iff_false, not_le]
    linarith

theorem isleft_near (p q a b : Pt) :
    isleft q a b = isleft p a b + (-(b.y - a.y)) * (q.x - p.x) + (b.x - a.x) * (q.y - p.y) := by
  unfold isleft; ring

theorem just_step_up {p a b : Pt} (hab : a.y < b.y) : JustRight p fun q => windStep q (a, b) = windStep p (a, b) := by
  have hL : JustRight p fun q => (0 < isleft q a b ↔ 0 < isleft p a b) := by
    by_cases h : 0 < isleft p a b
    · refine (just_pos h (-(b.y - a.y)) (b.x - a.x)).mono fun q hq => ?_
      rw [← isleft_near p q] at hq
      simp only [h, hq]
    · refine (just_neg (c := isleft p a b) (k := -(b.y - a.y)) (m := b.x - a.x) (not_lt.1 h) (by linarith)).mono fun q hq => ?_
      rw [← isleft_near p q] at hq
      simp only [h, iff_false, not_lt]
      exact hq.le
  refine ((just_le a.y).and ((just_le b.y).and hL)).mono ?_
  rintro q ⟨h1, h2, h3⟩
  have h2' : q.y < b.y ↔ p.y < b.y := by rw [← not_le, ← not_le, h2]
  unfold windStep
  simp only [gt_iff_lt, ge_iff_le]
  by_cases hp : a.y ≤ p.y ∧ p.y < b.y
  · rw [if_pos (show a.y ≤ q.y ∧ q.y < b.y from ⟨h1.2 hp.1, h2'.2 hp.2⟩), if_pos hp]
    by_cases h : 0 < isleft p a b
    · rw [if_pos h, if_pos (h3.2 h)]
    · rw [if_neg h, if_neg (fun k => h (h3.1 k))]
  · rw [if_neg (show ¬ (a.y ≤ q.y ∧ q.y < b.y) from fun k => hp ⟨h1.1 k.1, h2'.1 k.2⟩), if_neg hp,
      if_neg (fun k => by linarith [k.1, k.2]), if_neg (fun k => by linarith [k.1, k.2])]

theorem just_step (p a b : Pt) : JustRight p fun q => windStep q (a, b) = windStep p (a, b) := by
  rcases lt_trichotomy a.y b.y with h | h | h
  · exact just_step_up h
  · refine JustRight.of_forall fun q => ?_
    have : ∀ r : Pt, windStep r (a, b) = 0 := by
      intro r
      unfold windStep
      simp only
      rw [if_neg (fun k => by linarith [k.1, k.2]), if_neg (fun k => by linarith [k.1, k.2])]
    rw [this, this]
  · refine (just_step_up (p := p) h).mono fun q hq => ?_
    rw [windStep_swap, hq, ← windStep_swap]

theorem just_wind (p : Pt) (ps : List Pt) : JustRight p fun q => windCount q ps = windCount p ps := by
  refine (JustRight.all (P := fun e q => windStep q e = windStep p e) (ringEdges ps) fun e _ => just_step p e.1 e.2).mono ?_
  intro q h
  unfold windCount
  generalize (0 : Int) = z
  revert h z
  induction ringEdges ps with
  | nil => intros; rfl
  | cons e l ih =>
    intro h z
    rw [List.foldl_cons, List.foldl_cons, h e (by simp)]
    exact ih (fun d hd => h d (by simp [hd])) _

mutual
theorem just_contains (p : Pt) : ∀ P : Poly, JustRight p fun q => P.contains q = P.contains p
  | .mk ring subs => ((just_wind p ring).and (just_any p subs)).mono fun q h => by
      rw [Poly.contains, Poly.contains, h.2, ringContains, ringContains, h.1]
theorem just_any (p : Pt) : ∀ l : List Poly, JustRight p fun q => Poly.anyContains q l = Poly.anyContains p l
  | [] => JustRight.of_forall fun _ => rfl
  | P :: l => ((just_contains p P).and (just_any p l)).mono fun q h => by
      rw [Poly.anyContains, Poly.anyContains, h.1, h.2]
end

/-- C62, what holds instead, for every polygon with any sub-polygons: the answer for a point, on the boundary or
not, is the answer for the points just to its right, be they level with it or slightly above.  So a point of the
boundary is contained exactly when the polygon goes on to its right (or above it, on a horizontal side).
Missing for the full C62: points of the boundary with the polygon to their left or below. -/
theorem C62_just_right_partial (P : Poly) (p : Pt) :
    ∃ ε : ℚ, 0 < ε ∧ ∀ δ, 0 < δ → δ < ε → P.contains ⟨p.x + δ, p.y⟩ = P.contains p ∧
      ∃ θ : ℚ, 0 < θ ∧ ∀ η, 0 < η → η < θ → P.contains ⟨p.x + δ, p.y + η⟩ = P.contains p :=
  just_contains p P

/-- C62 for a polygon that turns left throughout: a point on a side, strictly left of the other sides, is
contained exactly when the side runs down, or level from left to right; that is, on the left and lower sides.
Missing for the full C62: the right and upper sides. -/
theorem C62_convex_partial (ps : List Pt) (hconv : ConvexLeft ps) (a b p : Pt) (he : IsEdge ps a b) (hab : a ≠ b)
    (hon : leftOf a b p = 0)
    (hin : ∀ c d, IsEdge ps c d → c ≠ d → (c, d) ≠ (a, b) → 0 < leftOf c d p) :
    ringContains p ps = true ↔ b.y < a.y ∨ (a.y = b.y ∧ a.x < b.x) := by
  have hj : JustRight p fun q => ringContains q ps = ringContains p ps :=
    (just_wind p ps).mono fun q h => by unfold ringContains; rw [h]
  have hleft : ∀ c d q : Pt, leftOf c d q = leftOf c d p + (-(d.y - c.y)) * (q.x - p.x) + (d.x - c.x) * (q.y - p.y) := by
    intro c d q; unfold leftOf; ring
  have hothers : JustRight p fun q => ∀ e ∈ ringEdges ps, e.1 ≠ e.2 → e ≠ (a, b) → 0 < leftOf e.1 e.2 q := by
    refine JustRight.all _ fun e hm => ?_
    by_cases h1 : e.1 = e.2
    · exact JustRight.of_forall fun q h => absurd h1 h
    by_cases h2 : e = (a, b)
    · exact JustRight.of_forall fun q _ h => absurd h2 h
    refine (just_pos (hin e.1 e.2 ((mem_ringEdges ps _ _).1 hm) h1 h2) (-(e.2.y - e.1.y)) (e.2.x - e.1.x)).mono fun q hq _ _ => ?_
    rw [hleft]; exact hq
  -- all points slightly above and to the right are on the same side of the side `a b`
  have pick : ∀ S : Pt → Prop, (Soon fun δ => Soon fun η => S ⟨p.x + δ, p.y + η⟩) →
      ∃ q, S q ∧ ringContains q ps = ringContains p ps ∧ ∀ e ∈ ringEdges ps, e.1 ≠ e.2 → e ≠ (a, b) → 0 < leftOf e.1 e.2 q := by
    intro S hS
    obtain ⟨δ, -, h1, -, h2⟩ := (hS.and (hj.and hothers)).exists
    obtain ⟨η, -, h3⟩ := (h1.and h2).exists
    exact ⟨_, h3.1, h3.2.1, h3.2.2⟩
  have inside : (∃ q, 0 < leftOf a b q ∧ ringContains q ps = ringContains p ps ∧
      ∀ e ∈ ringEdges ps, e.1 ≠ e.2 → e ≠ (a, b) → 0 < leftOf e.1 e.2 q) → ringContains p ps = true := by
    rintro ⟨q, h1, h2, h3⟩
    rw [← h2]
    refine (C38_convex q ps hconv ⟨a, b, he, hab⟩).1 fun c d hcd hne => ?_
    by_cases h : (c, d) = (a, b)
    · obtain ⟨rfl, rfl⟩ := Prod.mk.injEq _ _ _ _ ▸ h
      exact h1
    · exact h3 (c, d) ((mem_ringEdges ps _ _).2 hcd) hne h
  have outside : (∃ q, leftOf a b q < 0 ∧ ringContains q ps = ringContains p ps ∧
      ∀ e ∈ ringEdges ps, e.1 ≠ e.2 → e ≠ (a, b) → 0 < leftOf e.1 e.2 q) → ringContains p ps = false := by
    rintro ⟨q, h1, h2, -⟩
    rw [← h2]
    exact (C38_convex q ps hconv ⟨a, b, he, hab⟩).2 ⟨a, b, he, h1⟩
  rcases lt_trichotomy a.y b.y with h | h | h
  · have : ringContains p ps = false := by
      apply outside
      apply pick
      refine Soon.mono (just_neg (p := p) (c := leftOf a b p) (k := -(b.y - a.y)) (m := b.x - a.x) hon.le (by linarith)) ?_
      rintro δ - ⟨-, k⟩
      refine k.mono fun η _ k2 => ?_
      rw [hleft]; exact k2
    rw [this]
    constructor
    · intro k; cases k
    · rintro (k | k) <;> linarith [k]
  · rcases lt_trichotomy a.x b.x with hx | hx | hx
    · have : ringContains p ps = true := by
        apply inside
        apply pick
        refine Soon.of_forall fun δ _ => Soon.of_forall fun η h0 => ?_
        rw [hleft, hon, h]
        have := mul_pos (sub_pos.2 hx) h0
        simp only [sub_self, neg_zero, zero_mul, add_zero, zero_add, add_sub_cancel_left]
        exact this
      rw [this]
      simp [h, hx]
    · exact absurd (by cases a; cases b; simp only at h hx; rw [h, hx]) hab
    · have : ringContains p ps = false := by
        apply outside
        apply pick
        refine Soon.of_forall fun δ _ => Soon.of_forall fun η h0 => ?_
        rw [hleft, hon, h]
        have := mul_pos (sub_pos.2 hx) h0
        simp only [sub_self, neg_zero, zero_mul, add_zero, zero_add, add_sub_cancel_left]
        nlinarith
      rw [this]
      constructor
      · intro k; cases k
      · rintro (k | k)
        · linarith
        · linarith [k.2]
  · have : ringContains p ps = true := by
      apply inside
      apply pick
      refine Soon.mono (just_neg (p := p) (c := -leftOf a b p) (k := (b.y - a.y)) (m := -(b.x - a.x)) (by linarith) (by linarith)) ?_
      rintro δ - ⟨-, k⟩
      refine k.mono fun η _ k2 => ?_
      rw [hleft]
      simp only at k2 ⊢
      linarith
    rw [this]
    simp [h]

/-- Non-vacuity of C62 for convex polygons: the middles of the four sides of the unit square are on their side
and strictly left of the others, and two of them are contained. -/
example : (∀ e ∈ ringEdges exSquare, e.1 ≠ e.2 → e ≠ (⟨0, 1⟩, ⟨0, 0⟩) → 0 < leftOf e.1 e.2 ⟨0, 1 / 2⟩) ∧
    leftOf ⟨0, 1⟩ ⟨0, 0⟩ ⟨0, 1 / 2⟩ = 0 ∧
    [(⟨1 / 2, 0⟩ : Pt), ⟨1, 1 / 2⟩, ⟨1 / 2, 1⟩, ⟨0, 1 / 2⟩].map (ringContains · exSquare) = [true, false, false, true] := by
  refine ⟨by decide +kernel, by decide +kernel, by decide +kernel⟩

end Karta.Vec
