import Verif.Vec.PolygonProps
import Mathlib.Tactic.Linarith
import Mathlib.Tactic.FieldSimp
import Mathlib.Tactic.Ring
import Mathlib.Tactic.LinearCombination

/-!
Property C98: containment in a polygon changes only at the boundary.
-/

namespace Karta.Vec

/-! ### Specification -/

/-- The closed segments `pq` and `ab` have a common point. -/
def Meets (p q a b : Pt) : Prop :=
  ∃ t s : ℚ, 0 ≤ t ∧ t ≤ 1 ∧ 0 ≤ s ∧ s ≤ 1 ∧
    p.x + t * (q.x - p.x) = a.x + s * (b.x - a.x) ∧ p.y + t * (q.y - p.y) = a.y + s * (b.y - a.y)

/-- The segments `pq` and `ab` cross: each has its ends on different sides of the other. -/
def Crosses (p q a b : Pt) : Prop :=
  leftOf a b p * leftOf a b q < 0 ∧ leftOf p q a * leftOf p q b < 0

/-- The sides of the boundary rings of a polygon and of its sub-polygons at every level. -/
inductive Poly.Side : Poly → Pt → Pt → Prop
  | outer {ring subs a b} : IsEdge ring a b → Poly.Side (.mk ring subs) a b
  | inner {ring subs s a b} : s ∈ subs → Poly.Side s a b → Poly.Side (.mk ring subs) a b

/-! ### The proof -/

theorem Meets.symm {p q a b : Pt} (h : Meets p q a b) : Meets a b p q := by
  obtain ⟨t, s, h1, h2, h3, h4, h5, h6⟩ := h
  exact ⟨s, t, h3, h4, h1, h2, h5.symm, h6.symm⟩

theorem Meets.flip {p q a b : Pt} (h : Meets p q b a) : Meets p q a b := by
  obtain ⟨t, s, h1, h2, h3, h4, h5, h6⟩ := h
  exact ⟨t, 1 - s, h1, h2, by linarith, by linarith, by rw [h5]; ring, by rw [h6]; ring⟩

/-- A point of `pq` on the line through `ab` and at the height of the segment `ab`. -/
theorem meets_of_height {p q a b : Pt} {t : ℚ} (h0 : 0 ≤ t) (h1 : t ≤ 1) (hab : a.y < b.y)
    (hl : (1 - t) * isleft p a b + t * isleft q a b = 0) (ha : a.y ≤ p.y + t * (q.y - p.y)) (hb : p.y + t * (q.y - p.y) ≤ b.y) :
    Meets p q a b := by
  have hd : 0 < b.y - a.y := by linarith
  refine ⟨t, (p.y + t * (q.y - p.y) - a.y) / (b.y - a.y), h0, h1, div_nonneg (by linarith) hd.le, (div_le_one hd).mpr (by linarith),
    ?_, ?_⟩
  · rw [← sub_eq_zero]
    have : (p.x + t * (q.x - p.x) - (a.x + (p.y + t * (q.y - p.y) - a.y) / (b.y - a.y) * (b.x - a.x))) * (b.y - a.y)
        = -((1 - t) * isleft p a b + t * isleft q a b) := by
      unfold isleft; field_simp; ring
    rw [hl, neg_zero] at this
    exact (mul_eq_zero.mp this).resolve_right hd.ne'
  · field_simp; ring

/-- An affine function with a change of sign has a zero in between. -/
theorem affine_zero {u v t1 t2 : ℚ} (h12 : t1 ≤ t2) (h : ((1 - t1) * u + t1 * v) * ((1 - t2) * u + t2 * v) ≤ 0) :
    ∃ t, t1 ≤ t ∧ t ≤ t2 ∧ (1 - t) * u + t * v = 0 := by
  set f1 := (1 - t1) * u + t1 * v with e1
  set f2 := (1 - t2) * u + t2 * v with e2
  by_cases hz : f1 = 0
  · exact ⟨t1, le_refl _, h12, by rw [← e1]; exact hz⟩
  · have hne : f1 - f2 ≠ 0 := by
      intro he
      have : f2 = f1 := by linarith
      rw [this] at h
      exact hz (by nlinarith [mul_self_nonneg f1])
    have hr : 0 ≤ f1 / (f1 - f2) ∧ f1 / (f1 - f2) ≤ 1 := by
      rcases lt_or_gt_of_ne hz with hn | hp
      · have h2 : 0 ≤ f2 := by by_contra hc; push Not at hc; nlinarith
        constructor
        · exact div_nonneg_of_nonpos hn.le (by linarith)
        · rw [div_le_one_of_neg (by linarith)]; linarith
      · have h2 : f2 ≤ 0 := by by_contra hc; push Not at hc; nlinarith
        constructor
        · exact div_nonneg hp.le (by linarith)
        · rw [div_le_one (by linarith)]; linarith
    refine ⟨t1 + f1 / (f1 - f2) * (t2 - t1), by nlinarith [hr.1], by nlinarith [hr.2], ?_⟩
    have : ((1 - (t1 + f1 / (f1 - f2) * (t2 - t1))) * u + (t1 + f1 / (f1 - f2) * (t2 - t1)) * v)
        = f1 + f1 / (f1 - f2) * (f2 - f1) := by rw [e1, e2]; ring
    rw [this]
    field_simp
    ring

/-- Vertices between the two rays that start at `p` and `q`. -/
def strip (p q v : Pt) : Int := if p.y < v.y ∧ v.y ≤ q.y ∧ isleft v p q < 0 then 1 else 0

theorem windStep_up {pt a b : Pt} (h1 : a.y ≤ pt.y) (h2 : pt.y < b.y) : windStep pt (a, b) = if isleft pt a b > 0 then 1 else 0 := by
  unfold windStep; rw [if_pos ⟨h1, h2⟩]

theorem windStep_none {pt a b : Pt} (hab : a.y ≤ b.y) (h : b.y ≤ pt.y ∨ pt.y < a.y) : windStep pt (a, b) = 0 := by
  unfold windStep
  rw [if_neg, if_neg]
  · rintro ⟨k1, k2⟩; rcases h with h | h <;> simp only at k1 k2 <;> linarith
  · rintro ⟨k1, k2⟩; rcases h with h | h <;> simp only at k1 k2 <;> linarith

/-- The change of the counter for one upward side that is not met. -/
theorem step_apart {p q a b : Pt} (hpq : p.y ≤ q.y) (hab : a.y ≤ b.y) (hm : ¬ Meets p q a b) :
    windStep q (a, b) - windStep p (a, b) = strip p q a - strip p q b := by
  by_cases hal : a.y ≤ p.y
  · have sa : strip p q a = 0 := by unfold strip; rw [if_neg]; rintro ⟨h, -⟩; linarith
    by_cases hbl : b.y ≤ p.y
    · have sb : strip p q b = 0 := by unfold strip; rw [if_neg]; rintro ⟨h, -⟩; linarith
      rw [windStep_none hab (Or.inl hbl), windStep_none hab (Or.inl (by linarith)), sa, sb]
    · push Not at hbl
      by_cases hbm : b.y ≤ q.y
      · -- from below the lower ray to between the rays
        rw [windStep_none hab (Or.inl hbm), windStep_up hal hbl, sa]
        have hd : 0 < q.y - p.y := by linarith
        have key : ∀ t, 0 ≤ t → t ≤ (b.y - p.y) / (q.y - p.y) → (1 - t) * isleft p a b + t * isleft q a b ≠ 0 := by
          intro t t0 t1 hz
          have : t * (q.y - p.y) ≤ b.y - p.y := by rwa [le_div_iff₀ hd] at t1
          exact hm (meets_of_height t0 (t1.trans ((div_le_one hd).mpr (by linarith))) (by linarith) hz (by nlinarith) (by linarith))
        have hT : 0 ≤ (b.y - p.y) / (q.y - p.y) := div_nonneg (by linarith) hd.le
        have hv : ((1 - (b.y - p.y) / (q.y - p.y)) * isleft p a b + (b.y - p.y) / (q.y - p.y) * isleft q a b) * (q.y - p.y)
            = -(isleft b p q * (b.y - a.y)) := by unfold isleft; field_simp; ring
        have hprod : 0 < ((1 - 0) * isleft p a b + 0 * isleft q a b)
            * ((1 - (b.y - p.y) / (q.y - p.y)) * isleft p a b + (b.y - p.y) / (q.y - p.y) * isleft q a b) := by
          by_contra hc
          push Not at hc
          obtain ⟨t, ta, tb, tz⟩ := affine_zero hT hc
          exact key t ta tb tz
        have hs : 0 < -(isleft p a b * isleft b p q) := by
          have h1 : 0 < (isleft p a b * ((1 - (b.y - p.y) / (q.y - p.y)) * isleft p a b + (b.y - p.y) / (q.y - p.y) * isleft q a b))
              * (q.y - p.y) := mul_pos (by linarith) hd
          have h2 : 0 < -(isleft p a b * isleft b p q) * (b.y - a.y) := by
            rw [mul_assoc, hv] at h1
            linarith
          exact pos_of_mul_pos_left h2 (by linarith)
        unfold strip
        by_cases hp : isleft p a b > 0
        · have : isleft b p q < 0 := by by_contra hc; push Not at hc; nlinarith
          rw [if_pos hp, if_pos ⟨hbl, hbm, this⟩]
        · have : ¬ isleft b p q < 0 := by intro hc; push Not at hp; nlinarith
          rw [if_neg hp, if_neg (fun h => this h.2.2)]
      · -- from below both rays to above both
        push Not at hbm
        have sb : strip p q b = 0 := by unfold strip; rw [if_neg]; rintro ⟨-, h, -⟩; linarith
        rw [windStep_up (by linarith) hbm, windStep_up hal hbl, sa, sb]
        have hprod : 0 < ((1 - 0) * isleft p a b + 0 * isleft q a b) * ((1 - 1) * isleft p a b + 1 * isleft q a b) := by
          by_contra hc
          push Not at hc
          obtain ⟨t, ta, tb, tz⟩ := affine_zero zero_le_one hc
          exact hm (meets_of_height ta tb (by linarith) tz (by nlinarith) (by nlinarith))
        have hs : 0 < isleft p a b * isleft q a b := by nlinarith
        by_cases hp : isleft p a b > 0
        · have : isleft q a b > 0 := by by_contra hc; push Not at hc; nlinarith
          rw [if_pos hp, if_pos this]; try rfl
        · have : ¬ isleft q a b > 0 := by intro hc; push Not at hp; nlinarith
          rw [if_neg hp, if_neg this]; try rfl
  · push Not at hal
    by_cases ham : a.y ≤ q.y
    · have hd : 0 < q.y - p.y := by linarith
      rw [windStep_none (pt := p) hab (Or.inr hal)]
      by_cases hbm : b.y ≤ q.y
      · -- between the rays
        rw [windStep_none hab (Or.inl hbm)]
        have hprod : 0 < ((1 - 0) * isleft a p q + 0 * isleft b p q) * ((1 - 1) * isleft a p q + 1 * isleft b p q) := by
          by_contra hc
          push Not at hc
          obtain ⟨t, ta, tb, tz⟩ := affine_zero zero_le_one hc
          exact hm (meets_of_height ta tb (by linarith) tz (by nlinarith) (by nlinarith)).symm
        have hs : 0 < isleft a p q * isleft b p q := by nlinarith
        unfold strip
        by_cases hp : isleft a p q < 0
        · have : isleft b p q < 0 := by by_contra hc; push Not at hc; nlinarith
          rw [if_pos ⟨hal, ham, hp⟩, if_pos ⟨by linarith, hbm, this⟩]; try rfl
        · have : ¬ isleft b p q < 0 := by intro hc; push Not at hp; nlinarith
          rw [if_neg (fun h => hp h.2.2), if_neg (fun h => this h.2.2)]; try rfl
      · -- from between the rays to above both
        push Not at hbm
        have sb : strip p q b = 0 := by unfold strip; rw [if_neg]; rintro ⟨-, h, -⟩; linarith
        rw [windStep_up ham hbm, sb]
        have hT : (a.y - p.y) / (q.y - p.y) ≤ 1 := (div_le_one hd).mpr (by linarith)
        have hv : ((1 - (a.y - p.y) / (q.y - p.y)) * isleft p a b + (a.y - p.y) / (q.y - p.y) * isleft q a b) * (q.y - p.y)
            = -(isleft a p q * (b.y - a.y)) := by unfold isleft; field_simp; ring
        have hprod : 0 < ((1 - (a.y - p.y) / (q.y - p.y)) * isleft p a b + (a.y - p.y) / (q.y - p.y) * isleft q a b)
            * ((1 - 1) * isleft p a b + 1 * isleft q a b) := by
          by_contra hc
          push Not at hc
          obtain ⟨t, ta, tb, tz⟩ := affine_zero hT hc
          have t0 : 0 ≤ t := (div_nonneg (by linarith) hd.le).trans ta
          have : a.y - p.y ≤ t * (q.y - p.y) := by rwa [div_le_iff₀ hd] at ta
          exact hm (meets_of_height t0 tb (by linarith) tz (by linarith) (by nlinarith))
        have hs : 0 < -(isleft q a b * isleft a p q) := by
          have h1 : 0 < (((1 - (a.y - p.y) / (q.y - p.y)) * isleft p a b + (a.y - p.y) / (q.y - p.y) * isleft q a b) * isleft q a b)
              * (q.y - p.y) := mul_pos (by linarith) hd
          have h2 : 0 < -(isleft q a b * isleft a p q) * (b.y - a.y) := by
            rw [mul_right_comm, hv] at h1
            linarith
          exact pos_of_mul_pos_left h2 (by linarith)
        unfold strip
        by_cases hp : isleft q a b > 0
        · have : isleft a p q < 0 := by by_contra hc; push Not at hc; nlinarith
          rw [if_pos hp, if_pos ⟨hal, ham, this⟩]; try rfl
        · have : ¬ isleft a p q < 0 := by intro hc; push Not at hp; nlinarith
          rw [if_neg hp, if_neg (fun h => this h.2.2)]; try rfl
    · push Not at ham
      have sa : strip p q a = 0 := by unfold strip; rw [if_neg]; rintro ⟨-, h, -⟩; linarith
      have sb : strip p q b = 0 := by unfold strip; rw [if_neg]; rintro ⟨-, h, -⟩; linarith
      rw [windStep_none hab (Or.inr ham), windStep_none hab (Or.inr (by linarith)), sa, sb]

/-- The same for sides in both directions. -/
theorem step_apart' {p q a b : Pt} (hpq : p.y ≤ q.y) (hm : ¬ Meets p q a b) :
    windStep q (a, b) - windStep p (a, b) = strip p q a - strip p q b := by
  rcases le_total a.y b.y with h | h
  · exact step_apart hpq h hm
  · have := step_apart hpq h (fun k => hm k.flip)
    rw [windStep_swap, windStep_swap p] at this
    omega

theorem ringSum_sub (f g : Pt → Pt → Int) (ps : List Pt) : ringSum (fun a b => f a b - g a b) ps = ringSum f ps - ringSum g ps := by
  have h := ringSum_add f (fun a b => - g a b) ps
  rw [ringSum_neg] at h
  simpa [sub_eq_add_neg] using h

theorem wind_const {p q : Pt} {ps : List Pt} (h : ∀ a b, IsEdge ps a b → ¬ Meets p q a b) : windCount q ps = windCount p ps := by
  have main : ∀ p q : Pt, p.y ≤ q.y → (∀ a b, IsEdge ps a b → ¬ Meets p q a b) → windCount q ps = windCount p ps := by
    intro p q hpq h
    have e1 : ringSum (fun a b => windStep q (a, b) - windStep p (a, b)) ps = ringSum (fun a b => (-strip p q b) - (-strip p q a)) ps := by
      apply sum_congr_edges
      intro a b he
      have := step_apart' hpq (h a b ((mem_ringEdges ps a b).1 he))
      omega
    rw [ringSum_telescope (fun v => -strip p q v), ringSum_sub, ← windCount_eq, ← windCount_eq] at e1
    omega
  rcases le_total p.y q.y with hpq | hpq
  · exact main p q hpq h
  · exact (main q p hpq (fun a b he hm => h a b he hm.symm.flip.symm)).symm

/-- C98: the winding count of a ring, hence containment, is the same at both ends of a polyline that does not meet the ring. -/
theorem C98_ring (ps : List Pt) (p : Pt) (route : List Pt)
    (h : (p :: route).IsChain fun u v => ∀ a b, IsEdge ps a b → ¬ Meets u v a b) :
    windCount ((p :: route).getLast (by simp)) ps = windCount p ps ∧
      ringContains ((p :: route).getLast (by simp)) ps = ringContains p ps := by
  have key : windCount ((p :: route).getLast (by simp)) ps = windCount p ps := by
    induction route generalizing p with
    | nil => rfl
    | cons q r ih =>
      rw [List.isChain_cons_cons] at h
      rw [List.getLast_cons (by simp), ih q h.2]
      exact wind_const h.1
  exact ⟨key, by unfold ringContains; rw [key]⟩

mutual
theorem poly_const {u v : Pt} : ∀ P : Poly, (∀ a b, P.Side a b → ¬ Meets u v a b) → P.contains v = P.contains u
  | .mk ring subs, h => by
    rw [Poly.contains, Poly.contains, any_const subs (fun s hs a b k => h a b (.inner hs k))]
    have : windCount v ring = windCount u ring := wind_const fun a b k => h a b (.outer k)
    unfold ringContains
    rw [this]
theorem any_const {u v : Pt} : ∀ l : List Poly, (∀ s ∈ l, ∀ a b, s.Side a b → ¬ Meets u v a b) →
    Poly.anyContains v l = Poly.anyContains u l
  | [], _ => rfl
  | P :: l, h => by
    rw [Poly.anyContains, Poly.anyContains, poly_const P (h P (by simp)), any_const l (fun s hs => h s (by simp [hs]))]
end

/-- C98: a polygon, with any sub-polygons, contains both or neither of two points that can be joined by a polyline which does not
meet any of its sides. -/
theorem C98_contains_constant (P : Poly) (p : Pt) (route : List Pt)
    (h : (p :: route).IsChain fun u v => ∀ a b, P.Side a b → ¬ Meets u v a b) :
    P.contains ((p :: route).getLast (by simp)) = P.contains p := by
  induction route generalizing p with
  | nil => rfl
  | cons q r ih =>
    rw [List.isChain_cons_cons] at h
    rw [List.getLast_cons (by simp), ih q h.2]
    exact poly_const P h.1

/-- C98: a point from which the outside of the bounding box can be reached without meeting the outer boundary is not contained. -/
theorem C98_reaches_outside (ring : List Pt) (subs : List Poly) (box : Box) (hb : bbox ring = some box) (p : Pt) (route : List Pt)
    (h : (p :: route).IsChain fun u v => ∀ a b, IsEdge ring a b → ¬ Meets u v a b)
    (hout : ¬ box.Contains ((p :: route).getLast (by simp))) : (Poly.mk ring subs).contains p = false := by
  have := C38_outside_bbox _ ring box hb hout
  rw [(C98_ring ring p route h).2] at this
  rw [Poly.contains, this, Bool.false_and]

/-! ### Crossing one side -/

theorem step_cross {p q a b : Pt} (hpq : p.y ≤ q.y) (hab : a.y ≤ b.y) (hc : Crosses p q a b) :
    windStep q (a, b) - windStep p (a, b) - (strip p q a - strip p q b) = if isleft p a b > 0 then -1 else 1 := by
  obtain ⟨c1, c2⟩ := hc
  rw [← isleft_eq, ← isleft_eq] at c1 c2
  have hrel : isleft p a b - isleft q a b = -(isleft a p q - isleft b p q) := by unfold isleft; ring
  -- the heights overlap
  have hpy : isleft p a b * (q.y - a.y) - isleft q a b * (p.y - a.y) = isleft a p q * (a.y - b.y) := by unfold isleft; ring
  have hqy : isleft p a b * (q.y - b.y) - isleft q a b * (p.y - b.y) = isleft b p q * (a.y - b.y) := by unfold isleft; ring
  by_cases hp : isleft p a b > 0
  · have hq : isleft q a b < 0 := by by_contra k; push Not at k; nlinarith
    have hA : isleft a p q < 0 := by by_contra k; push Not at k; have : isleft b p q < 0 := by { by_contra k2; push Not at k2; nlinarith }; nlinarith
    have hB : 0 < isleft b p q := by by_contra k; push Not at k; nlinarith
    have h1 : a.y ≤ q.y := by by_contra k; push Not at k; nlinarith
    have h2 : p.y ≤ b.y := by by_contra k; push Not at k; nlinarith
    have hsb : strip p q b = 0 := by unfold strip; rw [if_neg]; rintro ⟨-, -, k⟩; linarith
    rw [if_pos hp, hsb]
    have wq : windStep q (a, b) = 0 := by
      by_cases hbq : b.y ≤ q.y
      · exact windStep_none hab (Or.inl hbq)
      · push Not at hbq
        rw [windStep_up h1 hbq, if_neg (by linarith)]
    by_cases hal : a.y ≤ p.y
    · have hpb : p.y < b.y := by
        rcases h2.lt_or_eq with k | k
        · exact k
        · exfalso
          have e : isleft p a b = (b.x - p.x) * (b.y - a.y) := by unfold isleft; rw [k]; ring
          have e' : isleft b p q = (p.x - b.x) * (q.y - b.y) := by unfold isleft; rw [k]; ring
          have n1 : 0 ≤ q.y - b.y := by linarith
          have n2 : 0 ≤ b.y - a.y := by linarith
          have : 0 ≤ p.x - b.x := by by_contra z; push Not at z; nlinarith
          nlinarith
      rw [wq, windStep_up hal hpb, if_pos hp]
      unfold strip; rw [if_neg]
      · rfl
      · rintro ⟨k, -⟩; linarith
    · push Not at hal
      rw [wq, windStep_none hab (Or.inr hal)]
      unfold strip; rw [if_pos ⟨hal, h1, hA⟩]; try rfl
  · have hp' : isleft p a b < 0 := lt_of_le_of_ne (not_lt.mp hp) (fun k => by rw [k] at c1; simp at c1)
    have hq : 0 < isleft q a b := by by_contra k; push Not at k; nlinarith
    have hA : 0 < isleft a p q := by by_contra k; push Not at k; have : 0 < isleft b p q := by { by_contra k2; push Not at k2; nlinarith }; nlinarith
    have hB : isleft b p q < 0 := by by_contra k; push Not at k; nlinarith
    have h1 : a.y ≤ q.y := by by_contra k; push Not at k; nlinarith
    have h2 : p.y ≤ b.y := by by_contra k; push Not at k; nlinarith
    have hsa : strip p q a = 0 := by unfold strip; rw [if_neg]; rintro ⟨-, -, k⟩; linarith
    rw [if_neg hp, hsa]
    have wp : windStep p (a, b) = 0 := by
      by_cases hap : a.y ≤ p.y
      · by_cases hpb : p.y < b.y
        · rw [windStep_up hap hpb, if_neg hp]
        · exact windStep_none hab (Or.inl (not_lt.mp hpb))
      · exact windStep_none hab (Or.inr (not_le.mp hap))
    by_cases hbq : b.y ≤ q.y
    · rw [wp, windStep_none hab (Or.inl hbq)]
      have hpb : p.y < b.y := by
        rcases h2.lt_or_eq with k | k
        · exact k
        · exfalso
          have e : isleft p a b = (b.x - p.x) * (b.y - a.y) := by unfold isleft; rw [k]; ring
          have e' : isleft b p q = (p.x - b.x) * (q.y - b.y) := by unfold isleft; rw [k]; ring
          have n1 : 0 ≤ q.y - b.y := by linarith
          have n2 : 0 ≤ b.y - a.y := by linarith
          have : p.x - b.x ≤ 0 := by by_contra z; push Not at z; nlinarith
          nlinarith
      unfold strip; rw [if_pos ⟨hpb, hbq, hB⟩]; try rfl
    · push Not at hbq
      rw [wp, windStep_up h1 hbq, if_pos hq]
      unfold strip; rw [if_neg]
      · rfl
      · rintro ⟨-, k, -⟩; linarith

theorem Crosses.flip {p q a b : Pt} (h : Crosses p q a b) : Crosses p q b a := by
  obtain ⟨h1, h2⟩ := h
  rw [← isleft_eq, ← isleft_eq] at h1
  refine ⟨?_, by linarith⟩
  rw [← isleft_eq, ← isleft_eq, isleft_swap p, isleft_swap q]
  linarith

theorem Crosses.rev {p q a b : Pt} (h : Crosses p q a b) : Crosses q p a b := by
  obtain ⟨h1, h2⟩ := h
  refine ⟨by linarith, ?_⟩
  rw [← isleft_eq, ← isleft_eq] at h2 ⊢
  rw [isleft_swap a, isleft_swap b]
  linarith

theorem step_cross' {p q a b : Pt} (hpq : p.y ≤ q.y) (hc : Crosses p q a b) :
    windStep q (a, b) - windStep p (a, b) - (strip p q a - strip p q b) = if 0 < leftOf a b p then -1 else 1 := by
  rw [← isleft_eq]
  rcases le_total a.y b.y with h | h
  · exact step_cross hpq h hc
  · have := step_cross hpq h hc.flip
    have hne : isleft p a b ≠ 0 := by
      intro k
      have := hc.1
      rw [← isleft_eq, k, zero_mul] at this
      exact lt_irrefl _ this
    rw [windStep_swap, windStep_swap p, isleft_swap] at this
    by_cases hp : 0 < isleft p a b
    · rw [if_pos hp]
      rw [if_neg (by linarith)] at this
      omega
    · rw [if_neg hp]
      rw [if_pos (by have : isleft p a b < 0 := lt_of_le_of_ne (not_lt.mp hp) hne
                     linarith)] at this
      omega

theorem pathSum_telescope (f : Pt → Int) (a : Pt) (l : List Pt) (z : Pt) :
    pathSum (fun u v => f u - f v) (a :: (l ++ [z])) = f a - f z := by
  induction l generalizing a with
  | nil => simp [pathSum]
  | cons b r ih =>
    rw [List.cons_append, pathSum, ih b]
    ring

theorem pathSum_congr (f g : Pt → Pt → Int) : ∀ l : List Pt, l.IsChain (fun u v => f u v = g u v) → pathSum f l = pathSum g l
  | [], _ => rfl
  | [_], _ => rfl
  | a :: b :: l, h => by
    rw [List.isChain_cons_cons] at h
    rw [pathSum, pathSum, h.1, pathSum_congr f g (b :: l) h.2]

theorem pathSum_sub (f g : Pt → Pt → Int) : ∀ l : List Pt, pathSum (fun u v => f u v - g u v) l = pathSum f l - pathSum g l
  | [] => rfl
  | [_] => rfl
  | a :: b :: l => by
    rw [pathSum, pathSum, pathSum, pathSum_sub f g (b :: l)]
    ring

/-- C98: going straight from `p` to `q` across exactly one side `ab` of a ring changes the winding count by one: it goes down when
the side is crossed from its left to its right, and up otherwise.  The other sides, from `b` on through `rest` back to `a`, are not met. -/
theorem C98_crossing (p q a b : Pt) (rest : List Pt) (hc : Crosses p q a b)
    (h : (b :: (rest ++ [a])).IsChain fun u v => ¬ Meets p q u v) :
    windCount q (a :: b :: rest) = windCount p (a :: b :: rest) + (if 0 < leftOf a b p then -1 else 1) := by
  have hw : ∀ r : Pt, windCount r (a :: b :: rest) = windStep r (a, b) + pathSum (fun u v => windStep r (u, v)) (b :: (rest ++ [a])) := by
    intro r
    rw [windCount_eq, ringSum]
    rfl
  have main : ∀ p q : Pt, p.y ≤ q.y → Crosses p q a b → (b :: (rest ++ [a])).IsChain (fun u v => ¬ Meets p q u v) →
      windCount q (a :: b :: rest) = windCount p (a :: b :: rest) + (if 0 < leftOf a b p then -1 else 1) := by
    intro p q hpq hc h
    have e1 := step_cross' hpq hc
    have e2 : pathSum (fun u v => windStep q (u, v) - windStep p (u, v)) (b :: (rest ++ [a]))
        = pathSum (fun u v => strip p q u - strip p q v) (b :: (rest ++ [a])) :=
      pathSum_congr _ _ _ (h.imp fun u v k => step_apart' hpq k)
    rw [pathSum_telescope, pathSum_sub] at e2
    rw [hw, hw]
    omega
  rcases le_total p.y q.y with hpq | hpq
  · exact main p q hpq hc h
  · have := main q p hpq hc.rev (h.imp fun u v k hm => k hm.symm.flip.symm)
    have hs := hc.1
    by_cases hp : 0 < leftOf a b p
    · rw [if_pos hp]
      rw [if_neg (by nlinarith)] at this
      omega
    · rw [if_neg hp]
      rw [if_pos (by by_contra k; push Not at k hp; nlinarith)] at this
      omega

/-- C98: from a point that a ring does not wind around, one crossing of its boundary leads into it. -/
theorem C98_enter (p q a b : Pt) (rest : List Pt) (hc : Crosses p q a b)
    (h : (b :: (rest ++ [a])).IsChain fun u v => ¬ Meets p q u v) (hout : ringContains p (a :: b :: rest) = false) :
    ringContains q (a :: b :: rest) = true := by
  unfold ringContains at *
  have hz : windCount p (a :: b :: rest) = 0 := by simpa using hout
  rw [C98_crossing p q a b rest hc h, hz]
  by_cases hp : 0 < leftOf a b p
  · rw [if_pos hp]; rfl
  · rw [if_neg hp]; rfl

/-! An L-shaped ring, which is not convex: the notch is outside, and going from the notch to the left leg crosses one side. -/

/-- The L-shape. -/
def exL : List Pt := [⟨1, 1⟩, ⟨1, 4⟩, ⟨0, 4⟩, ⟨0, 0⟩, ⟨4, 0⟩, ⟨4, 1⟩]

theorem not_meets_of_left {p q a b : Pt} (h : (0 < leftOf p q a ∧ 0 < leftOf p q b) ∨ (leftOf p q a < 0 ∧ leftOf p q b < 0) ∨
    (0 < leftOf a b p ∧ 0 < leftOf a b q) ∨ (leftOf a b p < 0 ∧ leftOf a b q < 0)) : ¬ Meets p q a b := by
  rintro ⟨t, s, t0, t1, s0, s1, hx, hy⟩
  have e1 : (1 - s) * leftOf p q a + s * leftOf p q b = 0 := by
    have : (1 - s) * leftOf p q a + s * leftOf p q b
        = (q.x - p.x) * (a.y + s * (b.y - a.y) - p.y) - (q.y - p.y) * (a.x + s * (b.x - a.x) - p.x) := by unfold leftOf; ring
    rw [this, ← hx, ← hy]; ring
  have e2 : (1 - t) * leftOf a b p + t * leftOf a b q = 0 := by
    have : (1 - t) * leftOf a b p + t * leftOf a b q
        = (b.x - a.x) * (p.y + t * (q.y - p.y) - a.y) - (b.y - a.y) * (p.x + t * (q.x - p.x) - a.x) := by unfold leftOf; ring
    rw [this, hx, hy]; ring
  have pos : ∀ r u v : ℚ, 0 ≤ r → r ≤ 1 → 0 < u → 0 < v → 0 < (1 - r) * u + r * v := by
    intro r u v r0 r1 hu hv
    rcases r0.lt_or_eq with k | k
    · nlinarith [mul_pos k hv, mul_nonneg (sub_nonneg.mpr r1) hu.le]
    · rw [← k]; linarith
  rcases h with ⟨h1, h2⟩ | ⟨h1, h2⟩ | ⟨h1, h2⟩ | ⟨h1, h2⟩
  · linarith [pos s _ _ s0 s1 h1 h2]
  · linarith [pos s _ _ s0 s1 (neg_pos.mpr h1) (neg_pos.mpr h2)]
  · linarith [pos t _ _ t0 t1 h1 h2]
  · linarith [pos t _ _ t0 t1 (neg_pos.mpr h1) (neg_pos.mpr h2)]

example : ringContains ⟨1 / 2, 5 / 2⟩ exL = true := by
  apply C98_enter ⟨2, 3⟩ ⟨1 / 2, 5 / 2⟩ ⟨1, 1⟩ ⟨1, 4⟩
  · unfold Crosses leftOf; norm_num
  · simp only [List.cons_append, List.nil_append, List.isChain_cons_cons, List.IsChain.singleton, and_true]
    refine ⟨?_, ?_, ?_, ?_, ?_⟩ <;> apply not_meets_of_left <;> unfold leftOf <;> norm_num
  · decide +kernel

/-- The notch can be left without meeting the ring. -/
example : (Poly.mk exL []).contains ⟨2, 3⟩ = false := by
  apply C98_reaches_outside exL [] ⟨0, 0, 4, 4⟩ (by decide +kernel) ⟨2, 3⟩ [⟨5, 5⟩]
  · rw [List.isChain_cons_cons]
    refine ⟨?_, .singleton _⟩
    intro a b he
    rw [← mem_ringEdges] at he
    have : ringEdges exL = [(⟨1, 1⟩, ⟨1, 4⟩), (⟨1, 4⟩, ⟨0, 4⟩), (⟨0, 4⟩, ⟨0, 0⟩), (⟨0, 0⟩, ⟨4, 0⟩), (⟨4, 0⟩, ⟨4, 1⟩), (⟨4, 1⟩, ⟨1, 1⟩)] := by
      decide +kernel
    rw [this] at he
    simp only [List.mem_cons, Prod.mk.injEq, List.not_mem_nil, or_false] at he
    rcases he with ⟨rfl, rfl⟩ | ⟨rfl, rfl⟩ | ⟨rfl, rfl⟩ | ⟨rfl, rfl⟩ | ⟨rfl, rfl⟩ | ⟨rfl, rfl⟩ <;> apply not_meets_of_left <;> unfold leftOf <;> norm_num
  · rintro ⟨-, h, -⟩
    norm_num at h

end Karta.Vec
