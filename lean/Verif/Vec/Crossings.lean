import Verif.Vec.Basic
import Mathlib.Tactic.Linarith
import Mathlib.Algebra.Order.Field.Basic
import Mathlib.Tactic.FieldSimp
import Mathlib.Tactic.Ring

/-!
Model of `count_crossings` (`/repo/karta/vector/intersection.pyx` 624-679), and property C178.
-/

namespace Karta.Crossings
open Karta Karta.Vec

/-! ### Model -/

/-- `isbetween_incl` (intersection.pyx 13-14). -/
def betweenL (a b c : ℚ) : Bool := decide (min a c ≤ b ∧ b < max a c)

/-- `isbetween_incr` (intersection.pyx 16-17). -/
def betweenR (a b c : ℚ) : Bool := decide (min a c < b ∧ b ≤ max a c)

/-- `iswithiny` of `intersects_cn` (intersection.pyx 668-673). -/
def withinY (m y y0 y1 : ℚ) : Bool :=
  if m > 0 ∧ betweenR y0 y y1 = true then true
  else if betweenL y0 y y1 = true then true
  else decide (|y0 - y1| < 1 / 10 ^ 15 ∧ |y - y0| < 1 / 10 ^ 15)

/-- `intersects_cn` (intersection.pyx 644-679); the answers 1 and 0 are `true` and `false`.  Simplification: no rounding. -/
def intersectsCn (xp yp : ℚ) (a b : Pt) : Bool :=
  if a.x ≠ b.x then
    if a.y + (b.y - a.y) / (b.x - a.x) * (xp - a.x) < yp then false
    else betweenR a.x xp b.x && withinY ((b.y - a.y) / (b.x - a.x)) (a.y + (b.y - a.y) / (b.x - a.x) * (xp - a.x)) a.y b.y
  else false

/-- The loop of `count_crossings` (intersection.pyx 635-641) with `todo` rounds left, from the vertex `p`. -/
def countLoop (xp yp : ℚ) : Nat → Pt → List Pt → Nat → Nat
  | todo + 1, p, q :: qs, cnt => countLoop xp yp todo q qs (if intersectsCn xp yp p q then cnt + 1 else cnt)
  | _, _, _, cnt => cnt

/-- `count_crossings` (intersection.pyx 624-642).  `n` is the number of vertices, less one unless they form a ring; the loop runs from 1 to `n - 1`.
What `getX(0)` does without vertices is up to the coordstring package; here it raises IndexError. -/
def countCrossings (xp yp : ℚ) (ring : Bool) (ps : List Pt) : Except Err Nat :=
  match ps with
  | [] => .error .indexError
  | p :: qs => .ok (countLoop xp yp ((if ring then ps.length else ps.length - 1) - 1) p qs 0)

/-! ### Specification -/

/-- A vertical ray upwards from `(xp, yp)` meets the side from `a` to `b`.  The left end of a side does not belong to it, the right end does, so that the
ray through a vertex where the line goes on to the right counts once; vertical sides are not counted. -/
def Crosses (xp yp : ℚ) (a b : Pt) : Prop :=
  ∃ t : ℚ, 0 ≤ t ∧ t ≤ 1 ∧ a.x + t * (b.x - a.x) = xp ∧ yp ≤ a.y + t * (b.y - a.y) ∧ min a.x b.x < xp

noncomputable instance (xp yp : ℚ) (a b : Pt) : Decidable (Crosses xp yp a b) := Classical.propDecidable _

/-- The sides of a line. -/
def sides (ps : List Pt) : List (Pt × Pt) := List.zip ps ps.tail

/-- The number of sides that the ray meets. -/
noncomputable def hits (xp yp : ℚ) (l : List (Pt × Pt)) : Nat := (l.filter fun s => decide (Crosses xp yp s.1 s.2)).length

/-! ### Lemmas -/

theorem betweenR_iff {a b c : ℚ} : betweenR a b c = true ↔ min a c < b ∧ b ≤ max a c := by unfold betweenR; exact decide_eq_true_iff
theorem betweenL_iff {a b c : ℚ} : betweenL a b c = true ↔ min a c ≤ b ∧ b < max a c := by unfold betweenL; exact decide_eq_true_iff

/-- Within the columns of a side its height is within its rows, as the code tests it. -/
theorem withinY_of {xp : ℚ} {a b : Pt} (h : a.x ≠ b.x) (hx : betweenR a.x xp b.x = true) :
    withinY ((b.y - a.y) / (b.x - a.x)) (a.y + (b.y - a.y) / (b.x - a.x) * (xp - a.x)) a.y b.y = true := by
  rw [betweenR_iff] at hx
  obtain ⟨t, ht⟩ : ∃ t, t = (xp - a.x) / (b.x - a.x) := ⟨_, rfl⟩
  have hd : b.x - a.x ≠ 0 := sub_ne_zero.2 (Ne.symm h)
  have hy : a.y + (b.y - a.y) / (b.x - a.x) * (xp - a.x) = a.y + t * (b.y - a.y) := by rw [ht]; field_simp
  have htx : xp - a.x = t * (b.x - a.x) := by rw [ht]; field_simp
  rw [hy]
  unfold withinY
  rcases lt_or_gt_of_ne h with hab | hab
  · rw [min_eq_left hab.le, max_eq_right hab.le] at hx
    have t0 : 0 < t := by rw [ht]; exact div_pos (by linarith) (by linarith)
    have t1 : t ≤ 1 := by rw [ht, div_le_one (by linarith)]; linarith
    rcases lt_trichotomy a.y b.y with k | k | k
    · have m0 : (b.y - a.y) / (b.x - a.x) > 0 := div_pos (by linarith) (by linarith)
      rw [if_pos ⟨m0, betweenR_iff.2 (by rw [min_eq_left k.le, max_eq_right k.le]; constructor <;> nlinarith)⟩]
    · by_cases c1 : (b.y - a.y) / (b.x - a.x) > 0 ∧ betweenR a.y (a.y + t * (b.y - a.y)) b.y = true
      · rw [if_pos c1]
      · rw [if_neg c1]
        by_cases c2 : betweenL a.y (a.y + t * (b.y - a.y)) b.y = true
        · rw [if_pos c2]
        · rw [if_neg c2, k]; simp
    · have m0 : ¬ (b.y - a.y) / (b.x - a.x) > 0 := not_lt.2 (div_nonpos_of_nonpos_of_nonneg (by linarith) (by linarith))
      rw [if_neg (fun c => m0 c.1), if_pos (betweenL_iff.2 (by rw [min_eq_right k.le, max_eq_left k.le]; constructor <;> nlinarith))]
  · rw [min_eq_right hab.le, max_eq_left hab.le] at hx
    have t0 : 0 ≤ t := by rw [ht]; exact div_nonneg_of_nonpos (by linarith) (by linarith)
    have t1 : t < 1 := by rw [ht, div_lt_one_of_neg (by linarith)]; linarith
    rcases lt_trichotomy a.y b.y with k | k | k
    · have m0 : ¬ (b.y - a.y) / (b.x - a.x) > 0 := not_lt.2 (div_nonpos_of_nonneg_of_nonpos (by linarith) (by linarith))
      rw [if_neg (fun c => m0 c.1), if_pos (betweenL_iff.2 (by rw [min_eq_left k.le, max_eq_right k.le]; constructor <;> nlinarith))]
    · by_cases c1 : (b.y - a.y) / (b.x - a.x) > 0 ∧ betweenR a.y (a.y + t * (b.y - a.y)) b.y = true
      · rw [if_pos c1]
      · rw [if_neg c1]
        by_cases c2 : betweenL a.y (a.y + t * (b.y - a.y)) b.y = true
        · rw [if_pos c2]
        · rw [if_neg c2, k]; simp
    · have m0 : (b.y - a.y) / (b.x - a.x) > 0 := div_pos_of_neg_of_neg (by linarith) (by linarith)
      rw [if_pos ⟨m0, betweenR_iff.2 (by rw [min_eq_right k.le, max_eq_left k.le]; constructor <;> nlinarith)⟩]

/-- C178, one side: the test is right for every side and point. -/
theorem C178_side (xp yp : ℚ) (a b : Pt) : intersectsCn xp yp a b = true ↔ Crosses xp yp a b := by
  unfold intersectsCn Crosses
  by_cases h : a.x ≠ b.x
  · have hd : b.x - a.x ≠ 0 := sub_ne_zero.2 (Ne.symm h)
    obtain ⟨s, hs⟩ : ∃ s, s = (xp - a.x) / (b.x - a.x) := ⟨_, rfl⟩
    have hy : a.y + (b.y - a.y) / (b.x - a.x) * (xp - a.x) = a.y + s * (b.y - a.y) := by rw [hs]; field_simp
    have hsx : a.x + s * (b.x - a.x) = xp := by rw [hs]; field_simp; ring
    rw [if_pos h]
    constructor
    · intro hh
      by_cases hl : a.y + (b.y - a.y) / (b.x - a.x) * (xp - a.x) < yp
      · rw [if_pos hl] at hh; exact absurd hh (by simp)
      · rw [if_neg hl, Bool.and_eq_true] at hh
        rw [hy] at hl
        have hx := betweenR_iff.1 hh.1
        refine ⟨s, ?_, ?_, hsx, not_lt.1 hl, hx.1⟩
        · rcases lt_or_gt_of_ne h with hab | hab
          · rw [min_eq_left hab.le] at hx; rw [hs]; exact div_nonneg (by linarith) (by linarith)
          · rw [max_eq_left hab.le] at hx; rw [hs]; exact div_nonneg_of_nonpos (by linarith) (by linarith)
        · rcases lt_or_gt_of_ne h with hab | hab
          · rw [max_eq_right hab.le] at hx; rw [hs, div_le_one (by linarith)]; linarith
          · rw [min_eq_right hab.le] at hx; rw [hs, div_le_one_of_neg (by linarith)]; linarith
    · rintro ⟨t, t0, t1, tx, ty, hlt⟩
      have hts : t = s := by
        rw [hs, ← tx]; field_simp; ring
      rw [hts] at ty t0 t1
      rw [if_neg (by rw [hy]; exact not_lt.2 ty)]
      have hx : betweenR a.x xp b.x = true := by
        rw [betweenR_iff]
        refine ⟨hlt, ?_⟩
        rcases lt_or_gt_of_ne h with hab | hab
        · rw [max_eq_right hab.le]; nlinarith
        · rw [max_eq_left hab.le]; nlinarith
      rw [hx, withinY_of h hx]; rfl
  · rw [if_neg h]
    rw [not_not] at h
    constructor
    · intro hh; exact absurd hh (by simp)
    · rintro ⟨t, -, -, tx, -, hlt⟩
      rw [h, min_self, ] at hlt
      rw [h, sub_self, mul_zero, add_zero] at tx
      linarith

theorem hits_nil (xp yp : ℚ) : hits xp yp [] = 0 := rfl

theorem hits_cons (xp yp : ℚ) (s : Pt × Pt) (l : List (Pt × Pt)) :
    hits xp yp (s :: l) = (if intersectsCn xp yp s.1 s.2 then 1 else 0) + hits xp yp l := by
  unfold hits
  by_cases h : Crosses xp yp s.1 s.2
  · rw [if_pos ((C178_side xp yp s.1 s.2).2 h), List.filter_cons_of_pos (by simpa using h), List.length_cons, Nat.add_comm]
  · rw [if_neg (fun c => h ((C178_side xp yp s.1 s.2).1 c)), List.filter_cons_of_neg (by simpa using h), Nat.zero_add]

theorem hits_append (xp yp : ℚ) (l r : List (Pt × Pt)) : hits xp yp (l ++ r) = hits xp yp l + hits xp yp r := by
  unfold hits
  rw [List.filter_append, List.length_append]

theorem countLoop_eq (xp yp : ℚ) : ∀ (todo : Nat) (p : Pt) (qs : List Pt) (cnt : Nat),
    countLoop xp yp todo p qs cnt = cnt + hits xp yp ((sides (p :: qs)).take todo)
  | 0, p, qs, cnt => by rw [countLoop, List.take_zero, hits_nil, Nat.add_zero]; simp
  | todo + 1, p, [], cnt => by
    rw [countLoop]
    · simp [sides, hits_nil]
    · simp
  | todo + 1, p, q :: qs, cnt => by
    have e : sides (p :: q :: qs) = (p, q) :: sides (q :: qs) := rfl
    rw [countLoop, countLoop_eq xp yp todo q qs, e, List.take_succ_cons, hits_cons]
    by_cases h : intersectsCn xp yp p q = true
    · rw [if_pos h, if_pos h]; omega
    · rw [if_neg h, if_neg h]; omega

theorem sides_length (ps : List Pt) : (sides ps).length = ps.length - 1 := by
  unfold sides
  rw [List.length_zip, List.length_tail]
  omega

/-! ### C178 -/

/-- C178, rings: all sides are counted but the closing one. -/
theorem C178_ring_partial (xp yp : ℚ) (ps : List Pt) (h : ps ≠ []) : countCrossings xp yp true ps = .ok (hits xp yp (sides ps)) := by
  cases ps with
  | nil => exact absurd rfl h
  | cons p qs =>
    unfold countCrossings
    dsimp only
    rw [if_pos rfl, countLoop_eq, Nat.zero_add, ← sides_length, List.take_length]

/-- C178, lines: all sides are counted but the last one. -/
theorem C178_line_partial (xp yp : ℚ) (ps : List Pt) (h : ps ≠ []) : countCrossings xp yp false ps = .ok (hits xp yp (sides ps).dropLast) := by
  cases ps with
  | nil => exact absurd rfl h
  | cons p qs =>
    unfold countCrossings
    dsimp only
    rw [if_neg (by simp), countLoop_eq, Nat.zero_add, ← sides_length, List.dropLast_eq_take]

/-- The sides of a ring. -/
def ringSides (ps : List Pt) : List (Pt × Pt) := sides ps ++ (ps.getLast?.bind fun q => ps.head?.map fun p => (q, p)).toList

/-- C178, rings: the count is the number of sides that the ray meets if it does not meet the closing side; otherwise one is missing. -/
theorem C178_ring_closing_partial (xp yp : ℚ) (p q : Pt) (ps : List Pt) (hp : ps.head? = some p) (hq : ps.getLast? = some q) :
    ∃ n, countCrossings xp yp true ps = .ok n ∧ (¬ Crosses xp yp q p → n = hits xp yp (ringSides ps)) ∧
      (Crosses xp yp q p → n + 1 = hits xp yp (ringSides ps)) := by
  have hne : ps ≠ [] := by rintro rfl; simp at hp
  refine ⟨_, C178_ring_partial xp yp ps hne, ?_, ?_⟩
  · intro hc
    have : intersectsCn xp yp q p = false := by
      rw [← Bool.not_eq_true, C178_side]; exact hc
    unfold ringSides
    rw [hp, hq, hits_append]
    simp [hits_cons, this, hits_nil]
  · intro hc
    have : intersectsCn xp yp q p = true := (C178_side xp yp q p).2 hc
    unfold ringSides
    rw [hp, hq, hits_append]
    simp [hits_cons, this, hits_nil]

/-- C178.  The count does not depend on the direction of a ring or line, apart from the side that is missing: a side is met whichever of its ends is named
first. -/
theorem C178_direction (xp yp : ℚ) (a b : Pt) : intersectsCn xp yp a b = intersectsCn xp yp b a := by
  have h : ∀ u v : Pt, Crosses xp yp u v → Crosses xp yp v u := by
    rintro u v ⟨t, t0, t1, tx, ty, hl⟩
    refine ⟨1 - t, by linarith, by linarith, by rw [← tx]; ring, ?_, by rwa [min_comm]⟩
    have : v.y + (1 - t) * (u.y - v.y) = u.y + t * (v.y - u.y) := by ring
    rw [this]; exact ty
  rw [Bool.eq_iff_iff, C178_side, C178_side]
  exact ⟨h a b, h b a⟩

/-- C178 is violated for lines: the last side is never counted.  The line from (0, 0) to (2, 0) passes above (1, -1), and the count is 0; with a further
vertex it is 1. -/
theorem C178_violated_line : countCrossings 1 (-1) false [⟨0, 0⟩, ⟨2, 0⟩] = .ok 0 ∧ Crosses 1 (-1) ⟨0, 0⟩ ⟨2, 0⟩ ∧
    countCrossings 1 (-1) false [⟨0, 0⟩, ⟨2, 0⟩, ⟨3, 0⟩] = .ok 1 := by
  refine ⟨by decide +kernel, ⟨1 / 2, by norm_num, by norm_num, by norm_num, by norm_num, by norm_num⟩, by decide +kernel⟩

/-- C178 is violated for rings: the count of crossings for a point inside a triangle is even or odd depending on the vertex that is listed first. -/
theorem C178_violated_ring : countCrossings 1 1 true [⟨0, 0⟩, ⟨4, 0⟩, ⟨0, 4⟩] = .ok 1 ∧ countCrossings 1 1 true [⟨0, 4⟩, ⟨0, 0⟩, ⟨4, 0⟩] = .ok 0 := by
  constructor <;> decide +kernel

/-- A ring around a point, and a ray through a vertex, which is counted once. -/
example : countCrossings 2 1 true [⟨4, 0⟩, ⟨2, 3⟩, ⟨0, 0⟩] = .ok 1 ∧ countCrossings 2 4 true [⟨4, 0⟩, ⟨2, 3⟩, ⟨0, 0⟩] = .ok 0 := by
  constructor <;> decide +kernel

end Karta.Crossings
