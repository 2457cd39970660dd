import Verif.Vec.Crossings
import Verif.Vec.PolygonProps
import Mathlib.Tactic.NormNum
/-!
The counts of `count_crossings` and containment in polygons (C178).
-/

namespace Karta.Crossings
open Karta Karta.Vec

theorem key {u v s t : ℚ} (nx : (0 < v ∧ 0 ≤ u) ∨ (u < 0 ∧ v ≤ 0) → u * s + v * t ≠ 0)
    (ny : (0 ≤ s ∧ t < 0) ∨ (s < 0 ∧ 0 ≤ t) → u * s + v * t ≠ 0) :
    xor (decide ((0 < v ∧ 0 ≤ u ∧ u * s + v * t ≤ 0) ∨ (u < 0 ∧ v ≤ 0 ∧ 0 ≤ u * s + v * t)))
      (decide ((0 ≤ s ∧ t < 0 ∧ 0 < u * s + v * t) ∨ (s < 0 ∧ 0 ≤ t ∧ u * s + v * t < 0))) =
    xor (decide (v ≤ 0 ∧ s < 0)) (decide (0 ≤ u ∧ t < 0)) := by
  have p1 : 0 ≤ u → 0 ≤ s → 0 ≤ u * s := mul_nonneg
  have p2 : 0 ≤ u → s < 0 → u * s ≤ 0 := fun h k => mul_nonpos_of_nonneg_of_nonpos h k.le
  have p3 : u < 0 → 0 ≤ s → u * s ≤ 0 := fun h k => mul_nonpos_of_nonpos_of_nonneg h.le k
  have p4 : u < 0 → s < 0 → 0 < u * s := mul_pos_of_neg_of_neg
  have q1 : v ≤ 0 → 0 ≤ t → v * t ≤ 0 := mul_nonpos_of_nonpos_of_nonneg
  have q2 : v ≤ 0 → t < 0 → 0 ≤ v * t := fun h k => mul_nonneg_of_nonpos_of_nonpos h k.le
  have q3 : 0 < v → 0 ≤ t → 0 ≤ v * t := fun h k => mul_nonneg h.le k
  have q4 : 0 < v → t < 0 → v * t < 0 := mul_neg_of_pos_of_neg
  generalize u * s = A at *
  generalize v * t = B at *
  rcases lt_or_ge u 0 with hu | hu <;> rcases lt_or_ge 0 v with hv | hv <;> rcases lt_or_ge s 0 with hs | hs <;> rcases lt_or_ge t 0 with ht | ht <;>
    simp only [hu, hv, hs, ht, not_lt.2, not_le.2, true_and, false_and, and_true, and_false, or_false, false_or, or_true, forall_true_left,
      IsEmpty.forall_iff, decide_true, decide_false, Bool.xor_false, Bool.false_xor, Bool.xor_true, Bool.not_true, Bool.not_false] at * <;>
    first
      | rfl
      | (rcases lt_trichotomy (A + B) 0 with h | h | h <;> first
          | (exfalso; first | linarith | exact nx h | exact ny h)
          | simp [h, h.le, not_le.2 h, not_lt.2 h.le])

/-- A point of a side. -/
def OnSide (p a b : Pt) : Prop := ∃ t : ℚ, 0 ≤ t ∧ t ≤ 1 ∧ p = ⟨a.x + t * (b.x - a.x), a.y + t * (b.y - a.y)⟩

theorem isleft_sum (p a b : Pt) : isleft p a b = (b.x - p.x) * (p.y - a.y) + (p.x - a.x) * (p.y - b.y) := by
  unfold isleft; ring

theorem cn_iff (p a b : Pt) : intersectsCn p.x p.y a b = decide ((0 < p.x - a.x ∧ 0 ≤ b.x - p.x ∧ isleft p a b ≤ 0) ∨
    (b.x - p.x < 0 ∧ p.x - a.x ≤ 0 ∧ 0 ≤ isleft p a b)) := by
  rw [Bool.eq_iff_iff, C178_side, decide_eq_true_iff]
  unfold Crosses
  constructor
  · rintro ⟨t, t0, t1, tx, ty, hl⟩
    rcases le_or_gt a.x b.x with h | h
    · rw [min_eq_left h] at hl
      left
      refine ⟨by linarith, by nlinarith, ?_⟩
      have : isleft p a b = (b.x - a.x) * (p.y - (a.y + t * (b.y - a.y))) := by unfold isleft; rw [← tx]; ring
      rw [this]
      exact mul_nonpos_of_nonneg_of_nonpos (by linarith) (by linarith)
    · rw [min_eq_right h.le] at hl
      right
      refine ⟨by linarith, by nlinarith, ?_⟩
      have : isleft p a b = (b.x - a.x) * (p.y - (a.y + t * (b.y - a.y))) := by unfold isleft; rw [← tx]; ring
      rw [this]
      exact mul_nonneg_of_nonpos_of_nonpos (by linarith) (by linarith)
  · intro h
    have hd : b.x - a.x ≠ 0 := by
      rcases h with ⟨h1, h2, -⟩ | ⟨h1, h2, -⟩
      · intro; linarith
      · intro; linarith
    obtain ⟨t, ht⟩ : ∃ t, t = (p.x - a.x) / (b.x - a.x) := ⟨_, rfl⟩
    have tx : a.x + t * (b.x - a.x) = p.x := by rw [ht]; field_simp; ring
    have e : isleft p a b = (b.x - a.x) * (p.y - (a.y + t * (b.y - a.y))) := by unfold isleft; rw [← tx]; ring
    rcases h with ⟨h1, h2, h3⟩ | ⟨h1, h2, h3⟩
    · have w : 0 < b.x - a.x := by linarith
      refine ⟨t, by rw [ht]; exact div_nonneg h1.le w.le, by rw [ht, div_le_one w]; linarith, tx, ?_, by rw [min_lt_iff]; left; linarith⟩
      rw [e] at h3
      by_contra hc
      have := mul_pos w (show 0 < p.y - (a.y + t * (b.y - a.y)) by linarith)
      linarith
    · have w : b.x - a.x < 0 := by linarith
      refine ⟨t, by rw [ht]; exact div_nonneg_of_nonpos h2 w.le, by rw [ht, div_le_one_of_neg w]; linarith, tx, ?_, by rw [min_lt_iff]; right; linarith⟩
      rw [e] at h3
      by_contra hc
      have := mul_neg_of_neg_of_pos w (show 0 < p.y - (a.y + t * (b.y - a.y)) by linarith)
      linarith

theorem wind_iff (p a b : Pt) : decide (windStep p (a, b) % 2 = 1) = decide ((0 ≤ p.y - a.y ∧ p.y - b.y < 0 ∧ 0 < isleft p a b) ∨
    (p.y - a.y < 0 ∧ 0 ≤ p.y - b.y ∧ isleft p a b < 0)) := by
  unfold windStep
  dsimp only
  by_cases h1 : a.y ≤ p.y ∧ p.y < b.y
  · rw [if_pos h1]
    have k1 : 0 ≤ p.y - a.y := by linarith [h1.1]
    have k2 : p.y - b.y < 0 := by linarith [h1.2]
    by_cases h : isleft p a b > 0
    · rw [if_pos h]; simp [k1, k2, h]
    · rw [if_neg h]; simp [k1, k2, not_lt.2 k1, not_lt.1 h]
  · rw [if_neg h1]
    have n1 : ¬ (0 ≤ p.y - a.y ∧ p.y - b.y < 0) := fun c => h1 ⟨by linarith [c.1], by linarith [c.2]⟩
    by_cases h2 : a.y > p.y ∧ p.y ≥ b.y
    · rw [if_pos h2]
      have k1 : p.y - a.y < 0 := by linarith [h2.1]
      have k2 : 0 ≤ p.y - b.y := by linarith [h2.2]
      by_cases h : isleft p a b < 0
      · rw [if_pos h]; simp [k1, k2, h]
      · rw [if_neg h]; simp [k1, k2, not_le.2 k1, not_lt.1 h]
    · rw [if_neg h2]
      have n2 : ¬ (p.y - a.y < 0 ∧ 0 ≤ p.y - b.y) := fun c => h2 ⟨by linarith [c.1], by linarith [c.2]⟩
      rw [decide_eq_false (by norm_num), eq_comm, decide_eq_false]
      rintro (⟨c1, c2, -⟩ | ⟨c1, c2, -⟩)
      · exact n1 ⟨c1, c2⟩
      · exact n2 ⟨c1, c2⟩

/-- The quadrant above and to the right of a point. -/
def quadrant (p a : Pt) : Bool := decide (p.x - a.x ≤ 0 ∧ p.y - a.y < 0)

theorem edge {p a b : Pt} (h : ¬ OnSide p a b) :
    xor (intersectsCn p.x p.y a b) (decide (windStep p (a, b) % 2 = 1)) = xor (quadrant p a) (quadrant p b) := by
  have on : ∀ t : ℚ, 0 ≤ t → t ≤ 1 → a.x + t * (b.x - a.x) = p.x → a.y + t * (b.y - a.y) = p.y → False := fun t t0 t1 ex ey =>
    h ⟨t, t0, t1, by rw [ex, ey]⟩
  have nx : (0 < p.x - a.x ∧ 0 ≤ b.x - p.x) ∨ (b.x - p.x < 0 ∧ p.x - a.x ≤ 0) → isleft p a b ≠ 0 := by
    intro hh e
    have hd : b.x - a.x ≠ 0 := by
      rcases hh with ⟨h1, h2⟩ | ⟨h1, h2⟩ <;> intro <;> linarith
    have e2 : (b.x - a.x) * p.y = (b.x - a.x) * a.y + (p.x - a.x) * (b.y - a.y) := by unfold isleft at e; linarith
    refine on ((p.x - a.x) / (b.x - a.x)) ?_ ?_ (by field_simp; ring) ?_
    · rcases hh with ⟨h1, h2⟩ | ⟨h1, h2⟩
      · exact div_nonneg h1.le (by linarith)
      · exact div_nonneg_of_nonpos h2 (by linarith)
    · rcases hh with ⟨h1, h2⟩ | ⟨h1, h2⟩
      · rw [div_le_one (by linarith)]; linarith
      · rw [div_le_one_of_neg (by linarith)]; linarith
    · field_simp
      linarith
  have ny : (0 ≤ p.y - a.y ∧ p.y - b.y < 0) ∨ (p.y - a.y < 0 ∧ 0 ≤ p.y - b.y) → isleft p a b ≠ 0 := by
    intro hh e
    have hd : b.y - a.y ≠ 0 := by
      rcases hh with ⟨h1, h2⟩ | ⟨h1, h2⟩ <;> intro <;> linarith
    have e2 : (b.y - a.y) * p.x = (b.y - a.y) * a.x + (p.y - a.y) * (b.x - a.x) := by unfold isleft at e; linarith
    refine on ((p.y - a.y) / (b.y - a.y)) ?_ ?_ ?_ (by field_simp; ring)
    · rcases hh with ⟨h1, h2⟩ | ⟨h1, h2⟩
      · exact div_nonneg h1 (by linarith)
      · exact div_nonneg_of_nonpos h1.le (by linarith)
    · rcases hh with ⟨h1, h2⟩ | ⟨h1, h2⟩
      · rw [div_le_one (by linarith)]; linarith
      · rw [div_le_one_of_neg (by linarith)]; linarith
    · field_simp
      linarith
  rw [cn_iff, wind_iff]
  unfold quadrant
  rw [isleft_sum] at nx ny ⊢
  have := key nx ny
  rw [this]
  congr 2
  rw [eq_iff_iff]
  constructor
  · rintro ⟨h1, h2⟩; exact ⟨by linarith, h2⟩
  · rintro ⟨h1, h2⟩; exact ⟨by linarith, h2⟩

theorem zip_shift : ∀ (x : Pt) (l : List Pt) (y : Pt), List.zip (x :: l) (l ++ [y]) = List.zip (x :: l) l ++ [((x :: l).getLast (by simp), y)]
  | x, [], y => rfl
  | x, z :: l, y => by
    rw [List.cons_append, List.zip_cons_cons, zip_shift z l y, List.zip_cons_cons, List.cons_append]
    congr 2

theorem ringSides_eq (ps : List Pt) (h : ps ≠ []) : ringSides ps = ringEdges ps := by
  cases ps with
  | nil => exact absurd rfl h
  | cons p qs =>
    unfold ringSides ringEdges sides
    rw [List.rotate_cons_succ, List.rotate_zero, zip_shift, List.getLast?_eq_getLast_of_ne_nil (by simp)]
    rfl

theorem zip_fst_sum (f : Pt → Int) : ∀ l m : List Pt, l.length = m.length → ((List.zip l m).map fun e => f e.1).sum = (l.map f).sum
  | [], [], _ => rfl
  | x :: l, y :: m, h => by
    rw [List.zip_cons_cons, List.map_cons, List.sum_cons, List.map_cons, List.sum_cons, zip_fst_sum f l m (by simpa using h)]

theorem zip_snd_sum (f : Pt → Int) : ∀ l m : List Pt, l.length = m.length → ((List.zip l m).map fun e => f e.2).sum = (m.map f).sum
  | [], [], _ => rfl
  | x :: l, y :: m, h => by
    rw [List.zip_cons_cons, List.map_cons, List.sum_cons, List.map_cons, List.sum_cons, zip_snd_sum f l m (by simpa using h)]

/-- 1 in the quadrant and 0 outside it. -/
def qi (p a : Pt) : Int := if quadrant p a then 1 else 0

theorem sum_cong (p : Pt) : ∀ l : List (Pt × Pt), (∀ e ∈ l, ¬ OnSide p e.1 e.2) →
    ((hits p.x p.y l : Int) + (l.map (windStep p)).sum - ((l.map fun e => qi p e.1).sum + (l.map fun e => qi p e.2).sum)) % 2 = 0
  | [], _ => rfl
  | e :: l, h => by
    have ih := sum_cong p l fun e he => h e (List.mem_cons_of_mem _ he)
    have k := edge (h e List.mem_cons_self)
    rw [hits_cons]
    simp only [List.map_cons, List.sum_cons]
    have w : windStep p e % 2 = 0 ∨ windStep p e % 2 = 1 := Int.emod_two_eq_zero_or_one _
    have we : windStep p (e.1, e.2) = windStep p e := rfl
    rw [we] at k
    generalize (l.map (windStep p)).sum = W at *
    generalize (l.map fun e => qi p e.1).sum = A at *
    generalize (l.map fun e => qi p e.2).sum = B at *
    generalize windStep p e = V at *
    generalize hits p.x p.y l = H at *
    unfold qi
    rcases w with w | w <;> cases c : intersectsCn p.x p.y e.1 e.2 <;> cases q1 : quadrant p e.1 <;> cases q2 : quadrant p e.2 <;>
      simp [w, c, q1, q2] at k ⊢ <;> omega

/-- The parity of the number of sides met by the ray is that of the counter of `contains`. -/
theorem parity (p : Pt) (ps : List Pt) (h : ps ≠ []) (off : ∀ e ∈ ringSides ps, ¬ OnSide p e.1 e.2) :
    ((hits p.x p.y (ringSides ps) : Int) + windCount p ps) % 2 = 0 := by
  have k := sum_cong p _ off
  rw [ringSides_eq ps h] at k ⊢
  have e : windCount p ps = ((ringEdges ps).map (windStep p)).sum := by
    rw [windCount, foldl_add_eq_sum, zero_add]
  have hl : ps.length = (ps.rotate 1).length := (List.length_rotate ps 1).symm
  have e1 : ((ringEdges ps).map fun e => qi p e.1).sum = (ps.map (qi p)).sum := zip_fst_sum (qi p) _ _ hl
  have e2 : ((ringEdges ps).map fun e => qi p e.2).sum = (ps.map (qi p)).sum := by
    have := zip_snd_sum (qi p) ps (ps.rotate 1) hl
    refine this.trans ?_
    exact (List.Perm.map _ (List.rotate_perm ps 1)).sum_eq
  rw [e1, e2, ← e] at k
  omega

/-- C178, points of polygons: for a point off the boundary of a ring, if the ray does not meet the closing side, the count is odd exactly when the ring
goes round the point an odd number of times. -/
theorem C178_inside_partial (p a b : Pt) (ps : List Pt) (ha : ps.head? = some a) (hb : ps.getLast? = some b) (off : ∀ e ∈ ringSides ps, ¬ OnSide p e.1 e.2)
    (hc : ¬ Crosses p.x p.y b a) : ∃ n, countCrossings p.x p.y true ps = .ok n ∧ (n % 2 = 1 ↔ windCount p ps % 2 = 1) := by
  have hne : ps ≠ [] := by rintro rfl; simp at ha
  obtain ⟨n, hn, h1, -⟩ := C178_ring_closing_partial p.x p.y a b ps ha hb
  have k := parity p ps hne off
  rw [← h1 hc] at k
  exact ⟨n, hn, by omega⟩

/-- C178, points of polygons: for a ring that goes round the point at most once, the count is then odd exactly when the polygon contains the point. -/
theorem C178_contains_partial (p a b : Pt) (ps : List Pt) (ha : ps.head? = some a) (hb : ps.getLast? = some b)
    (off : ∀ e ∈ ringSides ps, ¬ OnSide p e.1 e.2) (hc : ¬ Crosses p.x p.y b a) (hw : |windCount p ps| ≤ 1) :
    ∃ n, countCrossings p.x p.y true ps = .ok n ∧ (n % 2 = 1 ↔ (Poly.mk ps []).contains p = true) := by
  obtain ⟨n, hn, h⟩ := C178_inside_partial p a b ps ha hb off hc
  refine ⟨n, hn, h.trans ?_⟩
  have e : (Poly.mk ps []).contains p = ringContains p ps := by
    rw [Poly.contains, Poly.anyContains]; simp
  rw [e, ringContains, decide_eq_true_iff]
  rw [abs_le] at hw
  omega

/-- A triangle around the point (1, 1) whose closing side is below the point. -/
example : (∀ e ∈ ringSides [⟨4, 0⟩, ⟨0, 4⟩, ⟨0, 0⟩], ¬ OnSide ⟨1, 1⟩ e.1 e.2) ∧ ¬ Crosses 1 1 ⟨0, 0⟩ ⟨4, 0⟩ ∧
    |windCount ⟨1, 1⟩ [⟨4, 0⟩, ⟨0, 4⟩, ⟨0, 0⟩]| ≤ 1 ∧ countCrossings 1 1 true [⟨4, 0⟩, ⟨0, 4⟩, ⟨0, 0⟩] = .ok 1 := by
  refine ⟨?_, ?_, by decide +kernel, by decide +kernel⟩
  · intro e he
    have : e = (⟨4, 0⟩, ⟨0, 4⟩) ∨ e = (⟨0, 4⟩, ⟨0, 0⟩) ∨ e = (⟨0, 0⟩, ⟨4, 0⟩) := by simpa [ringSides, sides] using he
    rintro ⟨t, t0, t1, ht⟩
    rw [P2.mk.injEq] at ht
    rcases this with rfl | rfl | rfl <;> dsimp only at ht <;> linarith [ht.1, ht.2]
  · rw [← C178_side]; decide +kernel

end Karta.Crossings
