import Verif.Geod.Angle
import Mathlib.Tactic.Linarith
import Mathlib.Tactic.Ring
import Mathlib.Tactic.LinearCombination
import Mathlib.Tactic.Positivity
import Mathlib.Tactic.NormNum
import Mathlib.Algebra.Order.Floor.Ring

namespace Karta.Geod
open Karta

/-! ## C48: reduction of angles -/

/-- Spec: two angles in degrees differ by whole turns. -/
def Congruent (a b : ℚ) : Prop := ∃ k : ℤ, a = b + 360 * k

theorem pyMod_range (x : ℚ) : 0 ≤ pyMod x 360 ∧ pyMod x 360 < 360 := by
  unfold pyMod
  have h1 := Int.floor_le (x / 360)
  have h2 := Int.lt_floor_add_one (x / 360)
  have e : x = 360 * (x / 360) := by ring
  constructor <;> linarith

theorem pyMod_congr (x : ℚ) : ∃ k : ℤ, pyMod x 360 = x + 360 * k := ⟨-⌊x / 360⌋, by unfold pyMod; push_cast; ring⟩

/-- A congruent angle in a half-open window of a full turn is unique. -/
theorem congr_unique {a b w : ℚ} (h : Congruent a b) (ha : w ≤ a ∧ a < w + 360) (hb : w ≤ b ∧ b < w + 360) : a = b := by
  obtain ⟨k, hk⟩ := h
  have h1 : (k : ℚ) < 1 := by linarith [ha.2, hb.1]
  have h2 : (-1 : ℚ) < k := by linarith [ha.1, hb.2]
  have h1' : k < 1 := by exact_mod_cast h1
  have h2' : -1 < k := by exact_mod_cast h2
  have : k = 0 := by omega
  rw [hk, this]; simp

theorem Congruent.symm {a b : ℚ} (h : Congruent a b) : Congruent b a := by
  obtain ⟨k, hk⟩ := h
  exact ⟨-k, by rw [hk]; push_cast; ring⟩

theorem Congruent.trans {a b c : ℚ} (h : Congruent a b) (h' : Congruent b c) : Congruent a c := by
  obtain ⟨k, hk⟩ := h
  obtain ⟨l, hl⟩ := h'
  exact ⟨k + l, by rw [hk, hl]; push_cast; ring⟩

theorem reduce_range (x : ℚ) : -180 ≤ reduceDeg x ∧ reduceDeg x < 180 := by
  have := pyMod_range (x + 180)
  unfold reduceDeg
  constructor <;> linarith

theorem reduce_congr (x : ℚ) : Congruent (reduceDeg x) x := by
  obtain ⟨k, hk⟩ := pyMod_congr (x + 180)
  exact ⟨k, by unfold reduceDeg; rw [hk]; ring⟩

theorem unroll_range (x : ℚ) : 0 ≤ unrollDeg x ∧ unrollDeg x < 360 := pyMod_range x

theorem unroll_congr (x : ℚ) : Congruent (unrollDeg x) x := pyMod_congr x

theorem reduce_eq {x r : ℚ} (h : Congruent r x) (hr : -180 ≤ r ∧ r < 180) : reduceDeg x = r :=
  congr_unique (w := -180) ((reduce_congr x).trans h.symm) (by have := reduce_range x; constructor <;> linarith)
    (by constructor <;> linarith)

theorem unroll_eq {x r : ℚ} (h : Congruent r x) (hr : 0 ≤ r ∧ r < 360) : unrollDeg x = r :=
  congr_unique (w := 0) ((unroll_congr x).trans h.symm) (by have := unroll_range x; constructor <;> linarith)
    (by constructor <;> linarith)

/-- **C48.**  `reduce_deg` returns the congruent angle in [-180, 180), and is the only function that does;
consequently it is idempotent and depends only on the direction. -/
theorem C48_reduce (x : ℚ) : (-180 ≤ reduceDeg x ∧ reduceDeg x < 180) ∧ Congruent (reduceDeg x) x ∧
    (∀ r, -180 ≤ r → r < 180 → Congruent r x → r = reduceDeg x) ∧ reduceDeg (reduceDeg x) = reduceDeg x :=
  ⟨reduce_range x, reduce_congr x, fun _ h1 h2 h => (reduce_eq h ⟨h1, h2⟩).symm,
    reduce_eq ⟨0, by simp⟩ (reduce_range x)⟩

/-- **C48.**  The same for `unroll_deg` and [0, 360). -/
theorem C48_unroll (x : ℚ) : (0 ≤ unrollDeg x ∧ unrollDeg x < 360) ∧ Congruent (unrollDeg x) x ∧
    (∀ r, 0 ≤ r → r < 360 → Congruent r x → r = unrollDeg x) ∧ unrollDeg (unrollDeg x) = unrollDeg x :=
  ⟨unroll_range x, unroll_congr x, fun _ h1 h2 h => (unroll_eq h ⟨h1, h2⟩).symm,
    unroll_eq ⟨0, by simp⟩ (unroll_range x)⟩

example : reduceDeg 190 = -170 ∧ reduceDeg (-180) = -180 ∧ reduceDeg 180 = -180 ∧ unrollDeg (-10) = 350 ∧
    reduceDeg (5 / 2 - 720) = 5 / 2 := by decide +kernel

/-! ## C49: canonical configuration -/

/-- Spec: undo the recorded exchanges of the latitudes. -/
def undoLat (f : Flips) (y1 y2 : ℚ) : ℚ × ℚ :=
  let s := if f.ysignswap then (-y1, -y2) else (y1, y2)
  if f.yflip then (s.2, s.1) else s

/-- **C49.**  The canonical configuration satisfies the three conditions of its documentation, and the record of
flips suffices to recover both latitudes and the longitude difference up to whole turns. -/
theorem C49_canonical (x1 y1 x2 y2 : ℚ) {f : Flips} {u1 v1 u2 v2 : ℚ}
    (h : canonical x1 y1 x2 y2 = (f, u1, v1, u2, v2)) :
    v1 ≤ 0 ∧ v1 ≤ v2 ∧ v2 ≤ -v1 ∧ 0 ≤ u2 - u1 ∧ u2 - u1 ≤ 180 ∧
    undoLat f v1 v2 = (y1, y2) ∧ Congruent (if f.xflip then -(u2 - u1) else u2 - u1) (x2 - x1) := by
  unfold canonical at h
  simp only [Prod.mk.injEq] at h
  obtain ⟨rfl, rfl, rfl, rfl, rfl⟩ := h
  have hlon : 0 ≤ (canonLon x1 x2).2 - 0 ∧ (canonLon x1 x2).2 - 0 ≤ 180 ∧
      Congruent (if (canonLon x1 x2).1 then -((canonLon x1 x2).2 - 0) else (canonLon x1 x2).2 - 0) (x2 - x1) := by
    obtain ⟨r1, r2⟩ := reduce_range (x2 - x1)
    have hc := reduce_congr (x2 - x1)
    unfold canonLon
    simp only
    by_cases hd : reduceDeg (x2 - x1) < 0 ∨ 180 < reduceDeg (x2 - x1)
    · rw [if_pos hd]
      simp only [if_true, sub_zero, neg_neg]
      have hd' : reduceDeg (x2 - x1) < 0 := by
        rcases hd with h | h
        · exact h
        · linarith
      exact ⟨by linarith, by linarith, hc⟩
    · rw [if_neg hd]
      simp only [Bool.false_eq_true, if_false, sub_zero]
      push Not at hd
      exact ⟨hd.1, hd.2, hc⟩
  have hlat : ∀ a b : ℚ, |b| ≤ |a| → (canonSign a b).2.1 ≤ 0 ∧ (canonSign a b).2.1 ≤ (canonSign a b).2.2 ∧
      (canonSign a b).2.2 ≤ -(canonSign a b).2.1 ∧
      (if (canonSign a b).1 then (-(canonSign a b).2.1, -(canonSign a b).2.2)
        else ((canonSign a b).2.1, (canonSign a b).2.2)) = (a, b) := by
    intro a b hab
    unfold canonSign
    by_cases ha : 0 < a
    · rw [if_pos ha]
      rw [abs_of_pos ha] at hab
      have := abs_le.mp hab
      simp only [if_true, neg_neg]
      exact ⟨by linarith, by linarith, by linarith, trivial⟩
    · rw [if_neg ha]
      have ha' := not_lt.mp ha
      rw [abs_of_nonpos ha'] at hab
      have := abs_le.mp hab
      simp only [Bool.false_eq_true, if_false]
      exact ⟨ha', by linarith, by linarith, trivial⟩
  by_cases hs : |y1| < |y2|
  · have e : canonSwap y1 y2 = (true, y2, y1) := by unfold canonSwap; rw [if_pos hs]
    rw [e]
    obtain ⟨l1, l2, l3, l4⟩ := hlat y2 y1 hs.le
    refine ⟨l1, l2, l3, hlon.1, hlon.2.1, ?_, hlon.2.2⟩
    unfold undoLat
    simp only at l4 ⊢
    rw [l4]; rfl
  · have e : canonSwap y1 y2 = (false, y1, y2) := by unfold canonSwap; rw [if_neg hs]
    rw [e]
    obtain ⟨l1, l2, l3, l4⟩ := hlat y1 y2 (not_lt.mp hs)
    refine ⟨l1, l2, l3, hlon.1, hlon.2.1, ?_, hlon.2.2⟩
    unfold undoLat
    simp only at l4 ⊢
    rw [l4]; rfl

example : canonical 170 10 (-175) 40 = (⟨true, false, true⟩, 0, -40, 15, -10) ∧
    canonical 0 (-10) (-175) 40 = (⟨true, true, true⟩, 0, -40, 175, 10) := by decide +kernel

/-! ## C50: crossing the dateline -/

theorem fsign_cases (a : ℚ) : (0 ≤ a ∧ fsign a = 1) ∨ (a < 0 ∧ fsign a = -1) := by
  unfold fsign
  rcases lt_trichotomy a 0 with h | h | h
  · right; rw [if_neg h.ne, if_neg (not_lt.mpr h.le)]; exact ⟨h, rfl⟩
  · left; rw [if_pos h]; exact ⟨h.ge, rfl⟩
  · left; rw [if_neg h.ne', if_pos h]; exact ⟨h.le, rfl⟩

/-- **C50.**  For any two numbers: the answer is nonzero exactly when the signs differ (zero counting as positive)
and the longitudes differ by more than 180, and exchanging the ends changes its sign. -/
theorem C50_antisymmetric (x0 x1 : ℚ) : crossesDateline x1 x0 = -crossesDateline x0 x1 ∧
    (crossesDateline x0 x1 ≠ 0 ↔ ((0 ≤ x0 ∧ x1 < 0) ∨ (x0 < 0 ∧ 0 ≤ x1)) ∧ 180 < |x0 - x1|) ∧
    (crossesDateline x0 x1 = -1 ∨ crossesDateline x0 x1 = 0 ∨ crossesDateline x0 x1 = 1) := by
  have hs : fsign x0 ≠ fsign x1 ↔ ((0 ≤ x0 ∧ x1 < 0) ∨ (x0 < 0 ∧ 0 ≤ x1)) := by
    rcases fsign_cases x0 with ⟨h, e⟩ | ⟨h, e⟩ <;> rcases fsign_cases x1 with ⟨h', e'⟩ | ⟨h', e'⟩ <;> rw [e, e']
    · simp [h, h', not_lt.mpr h, not_lt.mpr h']
    · simp [h, h']
    · simp [h, h']
    · simp [h, h', not_le.mpr h, not_le.mpr h']
  unfold crossesDateline
  by_cases hc : fsign x0 ≠ fsign x1 ∧ 180 < |x0 - x1|
  · have hc' : fsign x1 ≠ fsign x0 ∧ 180 < |x1 - x0| := ⟨hc.1.symm, by rw [abs_sub_comm]; exact hc.2⟩
    rw [if_pos hc, if_pos hc']
    rw [hs] at hc
    by_cases h1 : 180 < x1 - x0
    · rw [if_pos h1, if_neg (by linarith)]
      exact ⟨rfl, by simp [hc.1, hc.2], by simp⟩
    · have h2 : 180 < x0 - x1 := by
        rcases lt_abs.mp hc.2 with h | h <;> linarith
      rw [if_neg h1, if_pos h2]
      exact ⟨rfl, by simp [hc.1, hc.2], by simp⟩
  · have hc' : ¬ (fsign x1 ≠ fsign x0 ∧ 180 < |x1 - x0|) := by
      rintro ⟨a, b⟩; exact hc ⟨a.symm, by rw [abs_sub_comm]; exact b⟩
    rw [if_neg hc, if_neg hc']
    rw [hs] at hc
    exact ⟨rfl, by simp only [ne_eq, not_true_eq_false, false_iff]; exact hc, by simp⟩

/-- Spec: the shorter way from longitude `x0` to longitude `x1`, positive eastward. -/
def shortWay (x0 x1 : ℚ) : ℚ := reduceDeg (x1 - x0)

/-- **C50.**  For longitudes in [-180, 180) that are not exactly opposite, the answer is nonzero exactly when the
shorter way between them leaves that range, that is, passes the antimeridian: 1 when it leaves to the west, -1
when it leaves to the east. -/
theorem C50_meaning {x0 x1 : ℚ} (h0 : -180 ≤ x0 ∧ x0 < 180) (h1 : -180 ≤ x1 ∧ x1 < 180) (hd : |x1 - x0| ≠ 180) :
    (crossesDateline x0 x1 = 1 ↔ x0 + shortWay x0 x1 < -180) ∧
    (crossesDateline x0 x1 = -1 ↔ 180 ≤ x0 + shortWay x0 x1) ∧
    x1 = x0 + shortWay x0 x1 + 360 * crossesDateline x0 x1 := by
  unfold shortWay
  rcases lt_or_ge 180 (x1 - x0) with hp | hp
  · have e : crossesDateline x0 x1 = 1 := by
      unfold crossesDateline
      have hx0 : x0 < 0 := by linarith [h1.2]
      have hx1 : 0 ≤ x1 := by linarith [h0.1]
      have : fsign x0 ≠ fsign x1 := by
        rcases fsign_cases x0 with ⟨h, _⟩ | ⟨_, e⟩
        · linarith
        · rcases fsign_cases x1 with ⟨_, e'⟩ | ⟨h, _⟩
          · rw [e, e']; decide
          · linarith
      rw [if_pos ⟨this, by rw [abs_sub_comm, lt_abs]; exact Or.inl hp⟩, if_pos hp]
    have r : reduceDeg (x1 - x0) = x1 - x0 - 360 := reduce_eq ⟨-1, by push_cast; ring⟩ ⟨by linarith, by linarith [h1.2, h0.1]⟩
    rw [e, r]
    refine ⟨⟨fun _ => by linarith [h1.2], fun _ => rfl⟩, ⟨fun h => (by cases h), fun h => by linarith [h1.2]⟩, ?_⟩
    push_cast; ring
  · rcases lt_or_ge (x1 - x0) (-180) with hn | hn
    · have e : crossesDateline x0 x1 = -1 := by
        unfold crossesDateline
        have hx0 : 0 ≤ x0 := by linarith [h1.1]
        have hx1 : x1 < 0 := by linarith [h0.2]
        have : fsign x0 ≠ fsign x1 := by
          rcases fsign_cases x0 with ⟨_, e⟩ | ⟨h, _⟩
          · rcases fsign_cases x1 with ⟨h, _⟩ | ⟨_, e'⟩
            · linarith
            · rw [e, e']; decide
          · linarith
        rw [if_pos ⟨this, by rw [abs_sub_comm, lt_abs]; exact Or.inr (by linarith)⟩, if_neg (by linarith)]
      have r : reduceDeg (x1 - x0) = x1 - x0 + 360 := reduce_eq ⟨1, by push_cast; ring⟩ ⟨by linarith [h1.1, h0.2], by linarith⟩
      rw [e, r]
      refine ⟨⟨fun h => (by cases h), fun h => by linarith [h1.1]⟩, ⟨fun _ => by linarith [h1.1], fun _ => rfl⟩, ?_⟩
      push_cast; ring
    · have hne : x1 - x0 ≠ 180 := by intro h; apply hd; rw [h]; norm_num
      have e : crossesDateline x0 x1 = 0 := by
        unfold crossesDateline
        rw [if_neg]
        rintro ⟨_, h⟩
        rw [abs_sub_comm, lt_abs] at h
        rcases h with h | h <;> linarith
      have r : reduceDeg (x1 - x0) = x1 - x0 := reduce_eq ⟨0, by simp⟩ ⟨by linarith, lt_of_le_of_ne hp hne⟩
      rw [e, r]
      refine ⟨⟨fun h => (by cases h), fun h => by linarith [h1.1]⟩, ⟨fun h => (by cases h), fun h => by linarith [h1.2]⟩, ?_⟩
      push_cast; ring

example : crossesDateline 170 (-170) = -1 ∧ crossesDateline (-170) 170 = 1 ∧ crossesDateline 10 (-150) = 0 ∧
    (170 : ℚ) + shortWay 170 (-170) = 190 := by decide +kernel

/-- Spec: consecutive vertices of a line, or of a polygon, whose last vertex is also followed by the first. -/
def Follows (closed : Bool) (xs : List ℚ) (a b : ℚ) : Prop :=
  (∃ i : Nat, xs[i]? = some a ∧ xs[i + 1]? = some b) ∨ (closed = true ∧ xs.getLast? = some a ∧ xs.head? = some b)

theorem mem_segLons (closed : Bool) (xs : List ℚ) (s : ℚ × ℚ) : s ∈ segLons closed xs ↔ Follows closed xs s.1 s.2 := by
  obtain ⟨a, b⟩ := s
  unfold segLons Follows
  rw [List.mem_append]
  apply or_congr
  · rw [List.mem_iff_getElem?]
    refine exists_congr fun i => ?_
    rw [List.getElem?_zip_eq_some, List.getElem?_tail]
  · cases closed
    · simp
    · cases hl : xs.getLast? <;> cases hh : xs.head? <;> simp [eq_comm]

/-- **C50.**  The method of lines and polygons agrees: it is true exactly when the way between two consecutive vertices,
including from the last to the first vertex of a polygon, crosses. -/
theorem C50_method (closed : Bool) (xs : List ℚ) :
    anyCrosses closed xs = true ↔ ∃ a b, Follows closed xs a b ∧ crossesDateline a b ≠ 0 := by
  have : (∃ a b, Follows closed xs a b ∧ crossesDateline a b ≠ 0) ↔
      ∃ s ∈ segLons closed xs, crossesDateline s.1 s.2 ≠ 0 := by
    constructor
    · rintro ⟨a, b, h, hc⟩; exact ⟨(a, b), (mem_segLons closed xs (a, b)).mpr h, hc⟩
    · rintro ⟨s, h, hc⟩; exact ⟨s.1, s.2, (mem_segLons closed xs s).mp h, hc⟩
  rw [this]
  unfold anyCrosses
  rw [List.any_eq_true]
  refine exists_congr fun s => and_congr_right fun _ => ?_
  unfold crossesDateline
  by_cases h : fsign s.1 ≠ fsign s.2 ∧ 180 < |s.1 - s.2|
  · rw [if_pos h, decide_eq_true h]
    by_cases h' : 180 < s.2 - s.1
    · rw [if_pos h']; simp
    · rw [if_neg h']; simp
  · rw [if_neg h, decide_eq_false h]; simp

example : anyCrosses true [170, -170, -175] = true ∧ anyCrosses false [10, 20, -30] = false := by decide +kernel

/-! ## C74: polar polygons -/

/-- Pairs of neighbouring longitudes around a ring, starting with the step from the last to the first. -/
def ringSteps (xs : List ℚ) : List (ℚ × ℚ) := (xs.getLast?.toList ++ xs).zip xs

/-- Spec: the total turn of a ring around the axis, in degrees: the sum of the shorter ways between neighbours. -/
def totalTurn (xs : List ℚ) : ℚ := ((ringSteps xs).map fun s => shortWay s.1 s.2).sum

/-- Number of neighbours between which the dateline is crossed. -/
def crossings (xs : List ℚ) : Nat :=
  ((ringSteps xs).filter fun s => crossesDateline (reduceDeg s.1) (reduceDeg s.2) ≠ 0).length

theorem polar_fold : ∀ (xs : List ℚ) (a acc : ℚ),
    (xs.foldl (fun (s : ℚ × ℚ) v =>
      (reduceDeg v,
        if crossesDateline s.1 (reduceDeg v) ≠ 0 then s.2 + (360 + reduceDeg v - s.1)
        else s.2 + (reduceDeg v - s.1))) (reduceDeg a, acc)) =
    (reduceDeg (xs.getLastD a), acc + 360 * ((((a :: xs).zip xs).filter fun s =>
        crossesDateline (reduceDeg s.1) (reduceDeg s.2) ≠ 0).length : ℕ) + (reduceDeg (xs.getLastD a) - reduceDeg a))
  | [], a, acc => by simp
  | v :: xs, a, acc => by
    rw [List.foldl_cons, polar_fold xs v]
    simp only [List.zip_cons_cons, List.getLastD_cons]
    congr 1
    by_cases h : crossesDateline (reduceDeg a) (reduceDeg v) ≠ 0
    · rw [if_pos h, List.filter_cons_of_pos (by simpa using h), List.length_cons]
      push_cast; ring
    · rw [if_neg h, List.filter_cons_of_neg (by simpa using h)]
      ring

theorem polarSum_eq {xs : List ℚ} (hne : xs ≠ []) : polarSum xs = 360 * crossings xs := by
  obtain ⟨x, r, rfl⟩ := List.exists_cons_of_ne_nil hne
  obtain ⟨z, hz⟩ : ∃ z, (x :: r).getLast? = some z := ⟨_, List.getLast?_eq_some_getLast hne⟩
  unfold polarSum crossings ringSteps
  rw [hz]
  simp only [Option.getD_some, Option.toList_some, List.singleton_append]
  rw [polar_fold]
  have : (x :: r).getLastD z = z := by
    rw [List.getLastD_eq_getLast?, hz]; rfl
  rw [this]
  ring

/-- **C74, exact behaviour.**  `ispolar` is true exactly when the ring crosses the dateline at all. -/
theorem C74_exact_partial {xs : List ℚ} (hne : xs ≠ []) :
    ispolar xs = true ↔ ∃ s ∈ ringSteps xs, crossesDateline (reduceDeg s.1) (reduceDeg s.2) ≠ 0 := by
  unfold ispolar
  rw [decide_eq_true_eq, polarSum_eq hne]
  have hc : (∃ s ∈ ringSteps xs, crossesDateline (reduceDeg s.1) (reduceDeg s.2) ≠ 0) ↔ 0 < crossings xs := by
    unfold crossings
    rw [List.length_pos_iff_exists_mem]
    simp
  rw [hc]
  constructor
  · intro h
    by_contra h0
    have : crossings xs = 0 := by omega
    rw [this] at h
    norm_num at h
  · intro h
    have : (1 : ℚ) ≤ (crossings xs : ℚ) := by exact_mod_cast h
    rw [abs_of_nonneg (by positivity)]
    have : (1 : ℚ) / 10000 < 360 := by norm_num
    linarith

theorem reduce_sub (a b : ℚ) : reduceDeg (b - a) = reduceDeg (reduceDeg b - reduceDeg a) := by
  symm
  apply reduce_eq _ (reduce_range _)
  refine (reduce_congr (b - a)).trans ?_
  obtain ⟨k, hk⟩ := reduce_congr a
  obtain ⟨l, hl⟩ := reduce_congr b
  exact ⟨k - l, by rw [hk, hl]; push_cast; ring⟩

/-- Neighbours are not exactly opposite. -/
def NoOpposite (xs : List ℚ) : Prop := ∀ s ∈ ringSteps xs, |reduceDeg s.2 - reduceDeg s.1| ≠ 180

theorem turn_sum : ∀ (l : List (ℚ × ℚ)), (∀ s ∈ l, |reduceDeg s.2 - reduceDeg s.1| ≠ 180) →
    (l.map fun s => shortWay s.1 s.2).sum = (l.map fun s => reduceDeg s.2 - reduceDeg s.1).sum -
      360 * ((l.map fun s => crossesDateline (reduceDeg s.1) (reduceDeg s.2)).sum : ℤ)
  | [], _ => by simp
  | s :: l, h => by
    have ih := turn_sum l fun x hx => h x (by simp [hx])
    have h1 := (C50_meaning (reduce_range s.1) (reduce_range s.2) (h s (by simp))).2.2
    have h2 : shortWay s.1 s.2 = shortWay (reduceDeg s.1) (reduceDeg s.2) := reduce_sub _ _
    simp only [List.map_cons, List.sum_cons]
    rw [ih, h2]
    push_cast
    linarith

theorem telescope (f : ℚ → ℚ) : ∀ (a : ℚ) (xs : List ℚ),
    (((a :: xs).zip xs).map fun s => f s.2 - f s.1).sum = f (xs.getLastD a) - f a
  | a, [] => by simp
  | a, v :: xs => by
    rw [List.zip_cons_cons, List.map_cons, List.sum_cons, telescope f v xs, List.getLastD_cons]
    ring

theorem totalTurn_eq {xs : List ℚ} (hne : xs ≠ []) (ho : NoOpposite xs) :
    totalTurn xs = -360 * (((ringSteps xs).map fun s => crossesDateline (reduceDeg s.1) (reduceDeg s.2)).sum : ℤ) := by
  unfold totalTurn
  rw [turn_sum _ ho]
  obtain ⟨z, hz⟩ : ∃ z, xs.getLast? = some z := ⟨_, List.getLast?_eq_some_getLast hne⟩
  have : ((ringSteps xs).map fun s => reduceDeg s.2 - reduceDeg s.1).sum = 0 := by
    unfold ringSteps
    rw [hz, Option.toList_some, List.singleton_append, telescope reduceDeg, List.getLastD_eq_getLast?, hz]
    simp
  rw [this]; ring

theorem sum_nonneg_zero : ∀ (l : List Int), (∀ x ∈ l, 0 ≤ x) → (l.sum = 0 ↔ ∀ x ∈ l, x = 0) ∧ 0 ≤ l.sum
  | [], _ => by simp
  | a :: l, h => by
    obtain ⟨h1, h2⟩ := sum_nonneg_zero l fun x hx => h x (by simp [hx])
    have ha := h a (by simp)
    rw [List.sum_cons]
    refine ⟨⟨fun h0 => ?_, fun h0 => ?_⟩, by omega⟩
    · have e1 : a = 0 := by omega
      have e2 : l.sum = 0 := by omega
      intro x hx
      rcases List.mem_cons.mp hx with rfl | hx
      · exact e1
      · exact h1.mp e2 x hx
    · rw [h0 a (by simp), h1.mpr fun x hx => h0 x (by simp [hx])]; rfl

/-- **C74 (part).**  When the ring crosses the dateline in one direction only (or not at all), `ispolar` is true
exactly when the ring turns around the axis.  Missing: rings that cross in both directions, for which it is always
true (`C74_violated_back_and_forth`). -/
theorem C74_one_way_partial {xs : List ℚ} (hne : xs ≠ []) (ho : NoOpposite xs)
    (h1 : (∀ s ∈ ringSteps xs, crossesDateline (reduceDeg s.1) (reduceDeg s.2) ≠ 1) ∨
      (∀ s ∈ ringSteps xs, crossesDateline (reduceDeg s.1) (reduceDeg s.2) ≠ -1)) :
    ispolar xs = true ↔ totalTurn xs ≠ 0 := by
  rw [C74_exact_partial hne, totalTurn_eq hne ho]
  have hz : ∀ S : ℤ, (-360 * (S : ℚ) ≠ 0 ↔ S ≠ 0) := by
    intro S
    rw [not_iff_not]
    constructor
    · intro h
      have : (S : ℚ) = 0 := by linarith
      exact_mod_cast this
    · intro h; rw [h]; simp
  rw [hz]
  rcases h1 with h1 | h1
  · have hneg : ∀ x ∈ ((ringSteps xs).map fun s => crossesDateline (reduceDeg s.1) (reduceDeg s.2)).map fun x => -x,
        0 ≤ x := by
      intro x hx
      simp only [List.map_map, List.mem_map, Function.comp_apply] at hx
      obtain ⟨s, hs, rfl⟩ := hx
      rcases (C50_antisymmetric (reduceDeg s.1) (reduceDeg s.2)).2.2 with h | h | h
      · rw [h]; decide
      · rw [h]; decide
      · exact absurd h (h1 s hs)
    have key := (sum_nonneg_zero _ hneg).1
    have hsum : ∀ l : List Int, (l.map fun x => -x).sum = -l.sum := by
      intro l; induction l with
      | nil => rfl
      | cons a l ih => rw [List.map_cons, List.sum_cons, List.sum_cons, ih]; ring
    rw [hsum] at key
    constructor
    · rintro ⟨s, hs, hx⟩ h0
      have := key.mp (by rw [h0]; rfl) (-crossesDateline (reduceDeg s.1) (reduceDeg s.2)) (by
        simp only [List.map_map, List.mem_map, Function.comp_apply]; exact ⟨s, hs, rfl⟩)
      exact hx (by omega)
    · intro h0
      by_contra hno
      push Not at hno
      apply h0
      have := key.mpr (by
        intro x hx
        simp only [List.map_map, List.mem_map, Function.comp_apply] at hx
        obtain ⟨s, hs, rfl⟩ := hx
        rw [hno s hs]; rfl)
      omega
  · have hpos : ∀ x ∈ (ringSteps xs).map fun s => crossesDateline (reduceDeg s.1) (reduceDeg s.2), 0 ≤ x := by
      intro x hx
      obtain ⟨s, hs, rfl⟩ := List.mem_map.mp hx
      rcases (C50_antisymmetric (reduceDeg s.1) (reduceDeg s.2)).2.2 with h | h | h
      · exact absurd h (h1 s hs)
      · rw [h]
      · rw [h]; decide
    have key := (sum_nonneg_zero _ hpos).1
    constructor
    · rintro ⟨s, hs, hx⟩ h0
      exact hx (key.mp h0 _ (List.mem_map.mpr ⟨s, hs, rfl⟩))
    · intro h0
      by_contra hno
      push Not at hno
      apply h0
      apply key.mpr
      intro x hx
      obtain ⟨s, hs, rfl⟩ := List.mem_map.mp hx
      exact hno s hs

/-- A ring around a pole, and one that stays away from the dateline. -/
example : NoOpposite [0, 90, 175, -90] ∧ totalTurn [0, 90, 175, -90] = 360 ∧ ispolar [0, 90, 175, -90] = true ∧
    totalTurn [0, 10, 10, 0] = 0 ∧ ispolar [0, 10, 10, 0] = false ∧
    (∀ s ∈ ringSteps [0, 90, 175, -90], crossesDateline (reduceDeg s.1) (reduceDeg s.2) ≠ 1) := by
  unfold NoOpposite; decide +kernel

/-- **C74 is violated.**  A small box across the dateline, away from the poles, is called polar: it does not turn
around the axis at all. -/
theorem C74_violated_back_and_forth (e : ℚ) (h0 : 0 < e) (h1 : e < 90) :
    ispolar [180 - e, -180 + e, -180 + e, 180 - e] = true ∧ totalTurn [180 - e, -180 + e, -180 + e, 180 - e] = 0 := by
  have r1 : reduceDeg (180 - e) = 180 - e := reduce_eq ⟨0, by simp⟩ ⟨by linarith, by linarith⟩
  have r2 : reduceDeg (-180 + e) = -180 + e := reduce_eq ⟨0, by simp⟩ ⟨by linarith, by linarith⟩
  have w1 : shortWay (180 - e) (-180 + e) = 2 * e := reduce_eq ⟨1, by push_cast; ring⟩ ⟨by linarith, by linarith⟩
  have w2 : shortWay (-180 + e) (180 - e) = -(2 * e) := reduce_eq ⟨-1, by push_cast; ring⟩ ⟨by linarith, by linarith⟩
  have w3 : ∀ x, shortWay x x = 0 := fun x => reduce_eq ⟨0, by simp⟩ ⟨by norm_num, by norm_num⟩
  constructor
  · rw [C74_exact_partial (by simp)]
    refine ⟨(180 - e, -180 + e), by simp [ringSteps], ?_⟩
    simp only [r1, r2]
    rw [(C50_antisymmetric _ _).2.1]
    refine ⟨Or.inl ⟨by linarith, by linarith⟩, ?_⟩
    rw [abs_of_pos (by linarith)]
    linarith
  · have : totalTurn [180 - e, -180 + e, -180 + e, 180 - e] =
        shortWay (180 - e) (180 - e) + (shortWay (180 - e) (-180 + e) + (shortWay (-180 + e) (-180 + e) +
          (shortWay (-180 + e) (180 - e) + 0))) := by
      simp [totalTurn, ringSteps]
    rw [this, w1, w2, w3, w3]; ring

/-! ## C75: position on a circle -/

/-- **C75 (part).**  For ends that are not exactly opposite, the test is true exactly when `x` is on the shorter arc
between `x0` and `x1`: it is reached from `x0` by a part of the shorter way to `x1`.  Missing: exactly opposite
ends (`C75_violated_opposite`). -/
theorem C75_between_partial {x x0 x1 : ℚ} (ho : unrollDeg (x1 - x0) ≠ 180) :
    isbetweenCircular x x0 x1 = true ↔ ∃ t : ℚ, 0 ≤ t ∧ t ≤ 1 ∧ Congruent x (x0 + t * shortWay x0 x1) := by
  obtain ⟨u1, u2⟩ := unroll_range (x1 - x0)
  have uc := unroll_congr (x1 - x0)
  have part : ∀ a d y : ℚ, 0 ≤ d → d < 180 → ((0 ≤ reduceDeg (y - a) ∧ reduceDeg (y - a) ≤ d) ↔
      ∃ t : ℚ, 0 ≤ t ∧ t ≤ 1 ∧ Congruent y (a + t * d)) := by
    intro a d y hd0 hd1
    constructor
    · rintro ⟨h1, h2⟩
      by_cases hd : d = 0
      · refine ⟨0, le_rfl, by norm_num, ?_⟩
        have e : reduceDeg (y - a) = 0 := by linarith
        obtain ⟨k, hk⟩ := reduce_congr (y - a)
        rw [e] at hk
        exact ⟨-k, by push_cast; linarith⟩
      · have hdp : 0 < d := lt_of_le_of_ne hd0 (Ne.symm hd)
        refine ⟨reduceDeg (y - a) / d, by positivity, by rw [div_le_one hdp]; exact h2, ?_⟩
        rw [div_mul_cancel₀ _ hd]
        obtain ⟨k, hk⟩ := reduce_congr (y - a)
        exact ⟨-k, by push_cast; linarith⟩
    · rintro ⟨t, t0, t1, k, hk⟩
      have hm : t * d ≤ d := by nlinarith
      have hm0 : 0 ≤ t * d := mul_nonneg t0 hd0
      have : reduceDeg (y - a) = t * d := reduce_eq ⟨-k, by rw [hk]; push_cast; ring⟩ ⟨by linarith, by linarith⟩
      rw [this]; exact ⟨hm0, hm⟩
  unfold isbetweenCircular
  by_cases h : 180 < unrollDeg (x1 - x0)
  · rw [if_pos h, decide_eq_true_eq]
    have e1 : reduceDeg (x0 - x1) = 360 - unrollDeg (x1 - x0) := by
      apply reduce_eq _ ⟨by linarith, by linarith⟩
      obtain ⟨k, hk⟩ := uc
      exact ⟨1 - k, by rw [hk]; push_cast; ring⟩
    have e2 : shortWay x0 x1 = unrollDeg (x1 - x0) - 360 := by
      apply reduce_eq _ ⟨by linarith, by linarith⟩
      obtain ⟨k, hk⟩ := uc
      exact ⟨k - 1, by rw [hk]; push_cast; ring⟩
    rw [part x1 _ x (by linarith [e1]) (by linarith [e1])]
    obtain ⟨k, hk⟩ := uc
    constructor
    · rintro ⟨t, t0, t1, m, hm⟩
      refine ⟨1 - t, by linarith, by linarith, m + 1 - k, ?_⟩
      rw [hm, e1, e2]
      push_cast
      linear_combination -hk
    · rintro ⟨t, t0, t1, m, hm⟩
      refine ⟨1 - t, by linarith, by linarith, m - 1 + k, ?_⟩
      rw [hm, e1, e2]
      push_cast
      linear_combination hk
  · rw [if_neg h, decide_eq_true_eq]
    have e1 : reduceDeg (x1 - x0) = unrollDeg (x1 - x0) :=
      reduce_eq uc ⟨by linarith, lt_of_le_of_ne (not_lt.mp h) ho⟩
    have : shortWay x0 x1 = reduceDeg (x1 - x0) := rfl
    rw [this]
    exact part x0 _ x (by rw [e1]; exact u1) (by rw [e1]; exact lt_of_le_of_ne (not_lt.mp h) ho)

example : isbetweenCircular (-175) 170 (-170) = true ∧ isbetweenCircular 175 (-170) 170 = true ∧
    isbetweenCircular 160 170 (-170) = false ∧ unrollDeg (-170 - 170) ≠ 180 := by decide +kernel

/-- **C75 is violated.**  Between exactly opposite longitudes no longitude counts as between, not even the ends. -/
theorem C75_violated_opposite (x x0 : ℚ) : isbetweenCircular x x0 (x0 + 180) = false := by
  have e1 : unrollDeg (x0 + 180 - x0) = 180 := unroll_eq ⟨0, by push_cast; ring⟩ ⟨by norm_num, by norm_num⟩
  have e2 : reduceDeg (x0 + 180 - x0) = -180 := reduce_eq ⟨-1, by push_cast; ring⟩ ⟨by norm_num, by norm_num⟩
  unfold isbetweenCircular
  rw [e1, e2, if_neg (lt_irrefl _), decide_eq_false]
  rintro ⟨h1, h2⟩
  linarith

/-! ## C76: longitudes of the geographical bounding box -/

/-- No two neighbours of the string lie on different sides of the dateline. -/
def NoCrossing (xs : List ℚ) : Prop := ∀ s ∈ xs.zip xs.tail, crossesDateline s.1 s.2 = 0

theorem lon_fold : ∀ (xs : List ℚ) (s : LonBox), (∀ t ∈ (s.x0 :: xs).zip xs, crossesDateline t.1 t.2 = 0) →
    s.xmin ≤ s.x0 → s.x0 ≤ s.xmax →
    (xs.foldl lonStep s).xmin ≤ s.xmin ∧ s.xmax ≤ (xs.foldl lonStep s).xmax ∧
    (∀ x ∈ xs, (xs.foldl lonStep s).xmin ≤ x ∧ x ≤ (xs.foldl lonStep s).xmax) ∧
    ((xs.foldl lonStep s).xmin = s.xmin ∨ (xs.foldl lonStep s).xmin ∈ xs) ∧
    ((xs.foldl lonStep s).xmax = s.xmax ∨ (xs.foldl lonStep s).xmax ∈ xs)
  | [], s, _, _, _ => by simp
  | v :: xs, s, h, h1, h2 => by
    have hc : crossesDateline s.x0 v = 0 := h (s.x0, v) (by simp)
    have hrest : ∀ t ∈ (v :: xs).zip xs, crossesDateline t.1 t.2 = 0 := fun t ht => h t (by
      rw [List.zip_cons_cons]; exact List.mem_cons_of_mem _ ht)
    rw [List.foldl_cons]
    have hstep : (lonStep s v).x0 = v ∧ (lonStep s v).xmin = min s.xmin v ∧ (lonStep s v).xmax = max s.xmax v := by
      unfold lonStep
      rw [hc]
      simp only [ne_eq, not_true_eq_false, if_false]
      by_cases hgt : s.x0 > v
      · rw [if_pos hgt]
        exact ⟨rfl, rfl, (max_eq_left (by linarith)).symm⟩
      · rw [if_neg hgt]
        exact ⟨rfl, (min_eq_left (by linarith [not_lt.mp hgt])).symm, rfl⟩
    obtain ⟨e0, e1, e2⟩ := hstep
    obtain ⟨i1, i2, i3, i4, i5⟩ := lon_fold xs (lonStep s v) (by rw [e0]; exact hrest)
      (by rw [e0, e1]; exact min_le_right _ _) (by rw [e0, e2]; exact le_max_right _ _)
    rw [e1] at i1 i4
    rw [e2] at i2 i5
    refine ⟨i1.trans (min_le_left _ _), (le_max_left _ _).trans i2, ?_, ?_, ?_⟩
    · intro x hx
      rcases List.mem_cons.mp hx with rfl | hx
      · exact ⟨i1.trans (min_le_right _ _), (le_max_right _ _).trans i2⟩
      · exact i3 x hx
    · rcases i4 with h | h
      · rcases min_choice s.xmin v with h' | h'
        · exact Or.inl (h.trans h')
        · exact Or.inr (by rw [h, h']; simp)
      · exact Or.inr (by simp [h])
    · rcases i5 with h | h
      · rcases max_choice s.xmax v with h' | h'
        · exact Or.inl (h.trans h')
        · exact Or.inr (by rw [h, h']; simp)
      · exact Or.inr (by simp [h])

/-- **C76 (part).**  For longitudes in [-180, 180) of which no two neighbours are on different sides of the dateline,
the western and eastern limit of the bounding box are the smallest and the largest longitude.  Missing: geometries
that cross the dateline (`C76_violated_after_crossing`) and longitude 180 (`C76_violated_180`). -/
theorem C76_no_crossing_partial {ring : Bool} {xs : List ℚ} (hr : ∀ x ∈ xs, -180 ≤ x ∧ x < 180)
    (hx : NoCrossing (if ring then xs ++ xs.head?.toList else xs)) (hne : xs ≠ []) :
    ∃ w e : ℚ, lonBbox ring xs = some (w, e) ∧ w ∈ xs ∧ e ∈ xs ∧ ∀ x ∈ xs, w ≤ x ∧ x ≤ e := by
  obtain ⟨x, r, rfl⟩ := List.exists_cons_of_ne_nil hne
  unfold lonBbox
  simp only
  have hl : (if ring then x :: r ++ [x] else x :: r) = x :: (if ring then r ++ [x] else r) := by cases ring <;> rfl
  have hx' : NoCrossing (x :: (if ring then r ++ [x] else r)) := by
    cases ring <;> exact hx
  rw [hl, List.foldl_cons]
  have hself : lonStep ⟨x, x, 0, x⟩ x = ⟨x, x, 0, x⟩ := by
    unfold lonStep
    have : crossesDateline x x = 0 := by simp [crossesDateline]
    simp [this]
  rw [hself]
  obtain ⟨_, _, i3, i4, i5⟩ := lon_fold (if ring then r ++ [x] else r) ⟨x, x, 0, x⟩ hx' le_rfl le_rfl
  obtain ⟨i1, i2, _⟩ := lon_fold (if ring then r ++ [x] else r) ⟨x, x, 0, x⟩ hx' le_rfl le_rfl
  generalize (if ring then r ++ [x] else r).foldl lonStep ⟨x, x, 0, x⟩ = s at *
  have hmem : ∀ y, y ∈ (if ring then r ++ [x] else r) → y ∈ x :: r := by
    intro y hy
    cases ring
    · exact List.mem_cons_of_mem _ hy
    · simp at hy ⊢; tauto
  have hmem' : ∀ y ∈ r, y ∈ (if ring then r ++ [x] else r) := by
    intro y hy
    cases ring <;> simp [hy]
  have m1 : s.xmin ∈ x :: r := by
    rcases i4 with h | h
    · rw [h]; simp
    · exact hmem _ h
  have m2 : s.xmax ∈ x :: r := by
    rcases i5 with h | h
    · rw [h]; simp
    · exact hmem _ h
  have e1 : reduceDeg s.xmin = s.xmin := reduce_eq ⟨0, by simp⟩ (hr _ m1)
  have e2 : reduceDeg s.xmax = s.xmax := reduce_eq ⟨0, by simp⟩ (hr _ m2)
  refine ⟨s.xmin, s.xmax, by rw [e1, e2], m1, m2, ?_⟩
  intro y hy
  rcases List.mem_cons.mp hy with rfl | hy
  · exact ⟨i1, i2⟩
  · exact i3 y (hmem' y hy)

example : NoCrossing [10, -20, 30, 10] ∧ lonBbox true [10, -20, 30] = some (-20, 30) := by
  unfold NoCrossing; decide +kernel

theorem lon_fold_rest : ∀ (xs : List ℚ) (s : LonBox), (∀ t ∈ (s.x0 :: xs).zip xs, crossesDateline t.1 t.2 = 0) →
    (xs.foldl lonStep s).rot = s.rot ∧ some (xs.foldl lonStep s).x0 = (s.x0 :: xs).getLast?
  | [], s, _ => by simp
  | v :: xs, s, h => by
    have hc : crossesDateline s.x0 v = 0 := h (s.x0, v) (by simp)
    have hrest : ∀ t ∈ (v :: xs).zip xs, crossesDateline t.1 t.2 = 0 := fun t ht => h t (by
      rw [List.zip_cons_cons]; exact List.mem_cons_of_mem _ ht)
    have hstep : (lonStep s v).x0 = v ∧ (lonStep s v).rot = s.rot := by
      unfold lonStep
      rw [hc]
      simp only [ne_eq, not_true_eq_false, if_false]
      by_cases hgt : s.x0 > v
      · rw [if_pos hgt]; exact ⟨rfl, rfl⟩
      · rw [if_neg hgt]; exact ⟨rfl, rfl⟩
    rw [List.foldl_cons]
    obtain ⟨i1, i2⟩ := lon_fold_rest xs (lonStep s v) (by rw [hstep.1]; exact hrest)
    refine ⟨i1.trans hstep.2, ?_⟩
    rw [i2, hstep.1]
    simp [List.getLast?_cons]

/-- Spec: the longitude lies in the box that goes east from `w` to `e`, across the dateline if `e < w`. -/
def InLonBox (w e x : ℚ) : Prop := if w ≤ e then w ≤ x ∧ x ≤ e else w ≤ x ∨ x ≤ e

/-- **C76 (part).**  A line whose last step, and no other, crosses the dateline: all longitudes lie in the box, which
goes from the westernmost vertex of the near side to the last one, or the other way round for a crossing to the west,
unless the line has come around the earth. -/
theorem C76_last_step_partial {xs : List ℚ} {l y : ℚ} (hr : ∀ x ∈ xs ++ [l, y], -180 ≤ x ∧ x < 180)
    (hx : NoCrossing (xs ++ [l])) :
    (180 < l - y → 0 < l → y < 0 → (∀ x ∈ xs ++ [l], y < x) →
      ∃ w, lonBbox false (xs ++ [l, y]) = some (w, y) ∧ w ∈ xs ++ [l] ∧ (∀ x ∈ xs ++ [l], w ≤ x) ∧ ∀ x ∈ xs ++ [l, y], InLonBox w y x) ∧
    (180 < y - l → l < 0 → 0 < y → (∀ x ∈ xs ++ [l], x < y) →
      ∃ e, lonBbox false (xs ++ [l, y]) = some (y, e) ∧ e ∈ xs ++ [l] ∧ (∀ x ∈ xs ++ [l], x ≤ e) ∧ ∀ x ∈ xs ++ [l, y], InLonBox y e x) := by
  obtain ⟨x, r, hxr⟩ : ∃ x r, xs ++ [l] = x :: r := by cases xs <;> simp
  have happ : xs ++ [l, y] = x :: (r ++ [y]) := by
    rw [show xs ++ [l, y] = (xs ++ [l]) ++ [y] by simp, hxr]; rfl
  have hlast : (x :: r).getLast? = some l := by rw [← hxr]; simp
  rw [happ] at hr ⊢
  rw [hxr] at hx ⊢
  have hself : lonStep ⟨x, x, 0, x⟩ x = ⟨x, x, 0, x⟩ := by
    unfold lonStep
    have : crossesDateline x x = 0 := by simp [crossesDateline]
    simp [this]
  obtain ⟨i1, i2, i3, i4, i5⟩ := lon_fold r ⟨x, x, 0, x⟩ hx le_rfl le_rfl
  obtain ⟨j1, j2⟩ := lon_fold_rest r ⟨x, x, 0, x⟩ hx
  have hbox : lonBbox false (x :: (r ++ [y])) =
      some (reduceDeg (lonStep (r.foldl lonStep ⟨x, x, 0, x⟩) y).xmin, reduceDeg (lonStep (r.foldl lonStep ⟨x, x, 0, x⟩) y).xmax) := by
    unfold lonBbox
    simp only [Bool.false_eq_true, if_false]
    rw [List.foldl_cons, hself, List.foldl_append]
    rfl
  rw [hbox]
  generalize r.foldl lonStep ⟨x, x, 0, x⟩ = s at *
  simp only at i1 i2 i3 i4 i5 j1 j2
  have hsl : s.x0 = l := by
    have : some s.x0 = some l := by rw [j2, hlast]
    exact Option.some.inj this
  have hy := hr y (by simp)
  have min_mem : s.xmin ∈ x :: r := by
    rcases i4 with h | h
    · rw [h]; simp
    · exact List.mem_cons_of_mem _ h
  have max_mem : s.xmax ∈ x :: r := by
    rcases i5 with h | h
    · rw [h]; simp
    · exact List.mem_cons_of_mem _ h
  have hall : ∀ z ∈ x :: r, s.xmin ≤ z ∧ z ≤ s.xmax := by
    intro z hz
    rcases List.mem_cons.1 hz with rfl | hz
    · exact ⟨i1, i2⟩
    · exact i3 z hz
  have hr' : ∀ z ∈ x :: r, -180 ≤ z ∧ z < 180 := fun z hz => hr z (by
    rcases List.mem_cons.1 hz with rfl | hz
    · simp
    · simp [hz])
  have hmin := hr' _ min_mem
  have hmax := hr' _ max_mem
  constructor
  · intro hd hl hyn hlt
    have hf : fsign l ≠ fsign y := by
      unfold fsign
      rw [if_neg (by linarith), if_pos hl, if_neg (by linarith), if_neg (by linarith)]
      norm_num
    have hc : crossesDateline s.x0 y = -1 := by
      rw [hsl, crossesDateline, if_pos ⟨hf, by rw [abs_of_pos (by linarith)]; exact hd⟩, if_neg (by linarith)]
    have hstep : lonStep s y = ⟨s.xmin, y + 360, 360, y⟩ := by
      unfold lonStep
      rw [hc, if_pos (by norm_num), j1]
      have h2 : (0 : ℚ) - ((-1 : ℤ) : ℚ) * 360 = 360 := by push_cast; ring
      simp only [h2]
      rw [min_eq_left (by linarith), max_eq_right (by linarith)]
    rw [hstep]
    simp only
    have e1 : reduceDeg s.xmin = s.xmin := reduce_eq ⟨0, by simp⟩ hmin
    have e2 : reduceDeg (y + 360) = y := reduce_eq ⟨-1, by push_cast; ring⟩ hy
    refine ⟨s.xmin, by rw [e1, e2], min_mem, fun z hz => (hall z hz).1, ?_⟩
    intro z hz
    unfold InLonBox
    rw [if_neg (not_le.2 (hlt _ min_mem))]
    rw [← List.cons_append, List.mem_append] at hz
    rcases hz with hz | hz
    · exact Or.inl (hall z hz).1
    · right; rw [List.mem_singleton.1 hz]
  · intro hd hl hyn hlt
    have hf : fsign l ≠ fsign y := by
      unfold fsign
      rw [if_neg (by linarith), if_neg (by linarith), if_neg (by linarith), if_pos hyn]
      norm_num
    have hc : crossesDateline s.x0 y = 1 := by
      rw [hsl, crossesDateline, if_pos ⟨hf, by rw [abs_of_neg (by linarith)]; linarith⟩, if_pos hd]
    have hstep : lonStep s y = ⟨y - 360, s.xmax, -360, y⟩ := by
      unfold lonStep
      rw [hc, if_pos (by norm_num), j1]
      have h2 : (0 : ℚ) - ((1 : ℤ) : ℚ) * 360 = -360 := by push_cast; ring
      simp only [h2]
      rw [min_eq_right (by linarith), max_eq_left (by linarith), ← sub_eq_add_neg]
    rw [hstep]
    simp only
    have e1 : reduceDeg s.xmax = s.xmax := reduce_eq ⟨0, by simp⟩ hmax
    have e2 : reduceDeg (y - 360) = y := reduce_eq ⟨1, by push_cast; ring⟩ hy
    refine ⟨s.xmax, by rw [e1, e2], max_mem, fun z hz => (hall z hz).2, ?_⟩
    intro z hz
    unfold InLonBox
    rw [if_neg (not_le.2 (hlt _ max_mem))]
    rw [← List.cons_append, List.mem_append] at hz
    rcases hz with hz | hz
    · exact Or.inr (hall z hz).2
    · left; rw [List.mem_singleton.1 hz]

/-- From Kamchatka over the sea to Alaska, the dateline in the last step. -/
example : lonBbox false [160, 155, 170, -165] = some (155, -165) ∧ InLonBox 155 (-165) 170 ∧ ¬ InLonBox 155 (-165) 0 := by
  refine ⟨by decide +kernel, ?_, ?_⟩ <;> unfold InLonBox <;> norm_num

example : NoCrossing ([160, 155] ++ [170]) ∧ (∀ x ∈ [160, 155] ++ [(170 : ℚ)], (-165 : ℚ) < x) ∧ (180 : ℚ) < 170 - (-165) := by
  unfold NoCrossing; decide +kernel

/-- **C76 is violated.**  After a crossing the vertices are no longer counted on the far side: the box of a line from
170 over -170 to -160 reaches only to -170. -/
theorem C76_violated_after_crossing : lonBbox false [170, -170, -160] = some (170, -170) ∧
    lonBbox false [170, -170] = some (170, -170) := by decide +kernel

/-- **C76 is violated.**  Longitude 180 is folded to -180: the box of a line from 170 to 180 has its eastern limit
west of its western one, as for a line across the dateline, and for a line from -10 to 180 it is empty of
longitude 10. -/
theorem C76_violated_180 : lonBbox false [170, 180] = some (170, -180) ∧
    lonBbox false [-10, 10, 180] = some (-10, -180) := by decide +kernel

/-! ## C77: distance along the equator -/

/-- **C77 (part).**  For points at most half a turn apart in the given numbers, the equatorial solution has the shorter
distance, and when also not exactly half a turn apart, the azimuth points the shorter way.  Missing: longitudes that
differ by more than 180 (`C77_violated_long_way`). -/
theorem C77_equatorial_partial {x1 x2 : ℚ} (h : |x1 - x2| ≤ 180) :
    (inverseEquatorial x1 x2).2.2 = |shortWay x1 x2| ∧
    ((inverseEquatorial x1 x2).1 = 90 ↔ 0 ≤ shortWay x1 x2) ∧
    ((inverseEquatorial x1 x2).1 = -90 ↔ shortWay x1 x2 < 0) := by
  have hd : (inverseEquatorial x1 x2).2.2 = |x1 - x2| := by
    unfold inverseEquatorial
    by_cases hc : pyMod (x2 - x1 + 180) 360 - 180 < 0
    · rw [if_pos hc]
    · rw [if_neg hc]
  have hw : |x1 - x2| = |shortWay x1 x2| := by
    have := abs_le.mp h
    by_cases he : x2 - x1 = 180
    · have : shortWay x1 x2 = -180 := reduce_eq ⟨-1, by push_cast; linarith⟩ ⟨le_rfl, by norm_num⟩
      rw [this, abs_sub_comm, he]; norm_num
    · have : shortWay x1 x2 = x2 - x1 := reduce_eq ⟨0, by simp⟩ ⟨by linarith, lt_of_le_of_ne (by linarith) he⟩
      rw [this, abs_sub_comm]
  refine ⟨hd.trans hw, ?_⟩
  unfold inverseEquatorial shortWay reduceDeg
  by_cases hc : pyMod (x2 - x1 + 180) 360 - 180 < 0
  · rw [if_pos hc]
    refine ⟨⟨fun h => ?_, fun h => absurd hc (not_lt.mpr h)⟩, ⟨fun _ => hc, fun _ => rfl⟩⟩
    norm_num at h
  · rw [if_neg hc]
    refine ⟨⟨fun _ => not_lt.mp hc, fun _ => rfl⟩, ⟨fun h => ?_, fun h => absurd h hc⟩⟩
    norm_num at h

example : inverseEquatorial 10 (-20) = (-90, 90, 30) ∧ |(10 : ℚ) - (-20)| ≤ 180 := by decide +kernel

/-- **C77 is violated.**  Whenever the given longitudes differ by more than 180, the azimuth points the shorter way but
the distance is not that of the shorter way. -/
theorem C77_violated_long_way {x1 x2 : ℚ} (h : 180 < |x1 - x2|) :
    (inverseEquatorial x1 x2).2.2 > |shortWay x1 x2| := by
  have hd : (inverseEquatorial x1 x2).2.2 = |x1 - x2| := by
    unfold inverseEquatorial
    by_cases hc : pyMod (x2 - x1 + 180) 360 - 180 < 0
    · rw [if_pos hc]
    · rw [if_neg hc]
  rw [hd]
  obtain ⟨h1, h2⟩ := reduce_range (x2 - x1)
  have : |shortWay x1 x2| ≤ 180 := abs_le.mpr ⟨h1, h2.le⟩
  linarith

end Karta.Geod
