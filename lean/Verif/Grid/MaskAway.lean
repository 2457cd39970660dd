import Verif.Grid.MaskPolyProps
import Verif.Float.Basic

/-!
C66 for polygons of any shape with vertices anywhere: cells away from the sides.
-/

namespace Karta.Grid
open Karta Karta.Band Karta.Py Karta.Vec

variable {α : Type _}

/-! ### Specification -/

/-- The centre of a cell of a grid without skew. -/
def midOf (T : Xform) (r c : Nat) : Pt := ⟨T.x0 + (c + 1 / 2) * T.dx, T.y0 + (r + 1 / 2) * T.dy⟩

/-- The point that divides the segment from `a` to `b` in the ratio `t : 1 - t`. -/
def between (a b : Pt) (t : ℚ) : Pt := ⟨a.x + t * (b.x - a.x), a.y + t * (b.y - a.y)⟩

/-- A side passes through the box of the size of a cell that hangs below the centre of the cell: as wide as the cell, from one cell
height below the centre up to the centre. -/
def PassesBelow (T : Xform) (r c : Nat) (a b : Pt) : Prop :=
  ∃ t : ℚ, 0 ≤ t ∧ t ≤ 1 ∧ |(between a b t).x - (midOf T r c).x| ≤ T.dx / 2 ∧
    (midOf T r c).y - T.dy ≤ (between a b t).y ∧ (between a b t).y ≤ (midOf T r c).y

/-! ### Lemmas -/

/-- Coordinates in units of cells. -/
def colOf (T : Xform) (p : ℚ × ℚ) : ℚ := (p.1 - T.x0) / T.dx
def rowOf (T : Xform) (p : ℚ × ℚ) : ℚ := (p.2 - T.y0) / T.dy

/-- A point of a segment, in units of cells. -/
def colAt (T : Xform) (p q : ℚ × ℚ) (t : ℚ) : ℚ := colOf T p + t * (colOf T q - colOf T p)
def rowAt (T : Xform) (p q : ℚ × ℚ) (t : ℚ) : ℚ := rowOf T p + t * (rowOf T q - rowOf T p)

/-- The height of the point is in the strip below the centres of row `r`. -/
def InStrip (T : Xform) (r : Nat) (p q : ℚ × ℚ) (t : ℚ) : Prop :=
  0 ≤ t ∧ t ≤ 1 ∧ (r : ℚ) - 1 / 2 ≤ rowAt T p q t ∧ rowAt T p q t ≤ r + 1 / 2

/-- The part of the segment in the strip is left of the centre. -/
def LeftIn (T : Xform) (r c : Nat) (p q : ℚ × ℚ) : Prop := ∃ t, InStrip T r p q t ∧ colAt T p q t < c + 1 / 2

/-- No point of the segment is in the box. -/
def Off (T : Xform) (r c : Nat) (p q : ℚ × ℚ) : Prop := ∀ t, InStrip T r p q t → 1 / 2 < |colAt T p q t - (c + 1 / 2)|

theorem off_of {T : Xform} (hd : 0 < T.dx) (hsq : T.dy = T.dx) {r c : Nat} {p q : ℚ × ℚ} (h : ¬ PassesBelow T r c (toPt p) (toPt q)) :
    Off T r c p q := by
  intro t ⟨h0, h1, h2, h3⟩
  by_contra hc
  apply h
  have ex : (between (toPt p) (toPt q) t).x - (midOf T r c).x = (colAt T p q t - (c + 1 / 2)) * T.dx := by
    unfold between midOf toPt colAt colOf
    field_simp
    ring
  have ey : (between (toPt p) (toPt q) t).y - (midOf T r c).y = (rowAt T p q t - (r + 1 / 2)) * T.dx := by
    unfold between midOf toPt rowAt rowOf
    rw [hsq]
    field_simp
    ring
  refine ⟨t, h0, h1, ?_, ?_, ?_⟩
  · rw [ex, abs_mul, abs_of_pos hd]
    have := mul_le_mul_of_nonneg_right (not_lt.1 hc) hd.le
    linarith
  · rw [hsq]; nlinarith
  · nlinarith

theorem left_iff {T : Xform} {r c : Nat} {p q : ℚ × ℚ} (h : Off T r c p q) {t : ℚ} (ht : InStrip T r p q t) :
    LeftIn T r c p q ↔ colAt T p q t < c + 1 / 2 := by
  constructor
  · rintro ⟨s, hs, hl⟩
    by_contra hc
    have hc := not_lt.1 hc
    -- the point of the segment above the centre
    have hd : colAt T p q s < colAt T p q t := lt_of_lt_of_le hl hc
    set w := ((c : ℚ) + 1 / 2 - colAt T p q s) / (colAt T p q t - colAt T p q s) with hw
    have hpos : 0 < colAt T p q t - colAt T p q s := by linarith
    have w0 : 0 ≤ w := div_nonneg (by linarith) hpos.le
    have w1 : w ≤ 1 := by rw [hw, div_le_one hpos]; linarith
    have lin : ∀ x y : ℚ, 0 ≤ y - x → x ≤ x + w * (y - x) ∧ x + w * (y - x) ≤ y := by
      intro x y hxy
      constructor <;> nlinarith
    have conv : ∀ x y lo hi : ℚ, lo ≤ x → x ≤ hi → lo ≤ y → y ≤ hi → lo ≤ x + w * (y - x) ∧ x + w * (y - x) ≤ hi := by
      intro x y lo hi a1 a2 a3 a4
      constructor <;> nlinarith
    obtain ⟨s0, s1, s2, s3⟩ := hs
    obtain ⟨t0, t1, t2, t3⟩ := ht
    have er : rowAt T p q (s + w * (t - s)) = rowAt T p q s + w * (rowAt T p q t - rowAt T p q s) := by unfold rowAt; ring
    have ec : colAt T p q (s + w * (t - s)) = c + 1 / 2 := by
      have : colAt T p q (s + w * (t - s)) = colAt T p q s + w * (colAt T p q t - colAt T p q s) := by unfold colAt; ring
      rw [this, hw, div_mul_cancel₀ _ hpos.ne']
      ring
    have a := conv s t 0 1 s0 s1 t0 t1
    have b := conv (rowAt T p q s) (rowAt T p q t) (r - 1 / 2) (r + 1 / 2) s2 s3 t2 t3
    have := h (s + w * (t - s)) ⟨a.1, a.2, by rw [er]; exact b.1, by rw [er]; exact b.2⟩
    rw [ec, sub_self, abs_zero] at this
    norm_num at this
  · intro hl
    exact ⟨t, ht, hl⟩

/-- Whether a vertex is counted as above the row. -/
def aboveSnap (T : Xform) (r : Nat) (p : ℚ × ℚ) : Int := if (r : Int) < rint (rowOf T p) then 1 else 0
def aboveMid (T : Xform) (r : Nat) (p : ℚ × ℚ) : Int := if (r : ℚ) + 1 / 2 < rowOf T p then 1 else 0

open Classical in
/-- One for sides left of the centre. -/
noncomputable def leftNum (T : Xform) (r c : Nat) (p q : ℚ × ℚ) : Int := if LeftIn T r c p q then 1 else 0

theorem leftIn_swap {T : Xform} {r c : Nat} {p q : ℚ × ℚ} : LeftIn T r c q p ↔ LeftIn T r c p q := by
  have key : ∀ {p q : ℚ × ℚ}, LeftIn T r c q p → LeftIn T r c p q := by
    rintro p q ⟨t, ⟨h0, h1, h2, h3⟩, h4⟩
    have er : rowAt T p q (1 - t) = rowAt T q p t := by unfold rowAt; ring
    have ec : colAt T p q (1 - t) = colAt T q p t := by unfold colAt; ring
    exact ⟨1 - t, ⟨by linarith, by linarith, by rw [er]; exact h2, by rw [er]; exact h3⟩, by rw [ec]; exact h4⟩
  exact ⟨key, key⟩

theorem leftNum_swap {T : Xform} {r c : Nat} {p q : ℚ × ℚ} : leftNum T r c q p = leftNum T r c p q := by
  unfold leftNum
  by_cases k : LeftIn T r c p q
  · rw [if_pos k, if_pos (leftIn_swap.2 k)]
  · rw [if_neg k, if_neg fun m => k (leftIn_swap.1 m)]

theorem off_swap {T : Xform} {r c : Nat} {p q : ℚ × ℚ} (h : Off T r c p q) : Off T r c q p := by
  rintro t ⟨h0, h1, h2, h3⟩
  have er : rowAt T p q (1 - t) = rowAt T q p t := by unfold rowAt; ring
  have ec : colAt T p q (1 - t) = colAt T q p t := by unfold colAt; ring
  have := h (1 - t) ⟨by linarith, by linarith, by rw [er]; exact h2, by rw [er]; exact h3⟩
  rwa [ec] at this

theorem rint_half (q : ℚ) : (rint q : ℚ) - 1 / 2 ≤ q ∧ q ≤ rint q + 1 / 2 := by
  have := Karta.Float.rint_bounds q
  rw [abs_le] at this
  constructor <;> linarith [this.1, this.2]

theorem contrib_off_up {T : Xform} (hd : 0 < T.dx) (hsq : T.dy = T.dx) (hsx : T.sx = 0) (hsy : T.sy = 0) {r c : Nat} {p q : ℚ × ℚ}
    (h : Off T r c p q) (hlt : p.2 < q.2) :
    contrib T p q r c = leftNum T r c p q * (aboveSnap T r q - aboveSnap T r p) := by
  have hV : rowOf T p < rowOf T q := by
    unfold rowOf
    rw [hsq]
    exact div_lt_div_of_pos_right (by linarith) hd
  have hslope : (q.1 - p.1) / (q.2 - p.2) = (colOf T q - colOf T p) / (rowOf T q - rowOf T p) := by
    unfold colOf rowOf
    rw [hsq, ← sub_div, ← sub_div, div_div_div_cancel_right₀ hd.ne']
    ring
  unfold contrib
  simp only [vertexIdx_unskewed hsx hsy]
  rw [if_pos hlt, hslope]
  change (if rint (rowOf T p) ≤ r ∧ (r : Int) < rint (rowOf T q) ∧
    rint ((((r : Int) - rint (rowOf T p) : Int) : ℚ) * ((colOf T q - colOf T p) / (rowOf T q - rowOf T p)) + rint (colOf T p)) ≤ c
    then (1 : Int) else 0) = _
  unfold aboveSnap
  by_cases hr : rint (rowOf T p) ≤ r ∧ (r : Int) < rint (rowOf T q)
  · obtain ⟨h1, h2⟩ := hr
    rw [if_pos h2, if_neg (not_lt.2 h1)]
    have v0 := rint_half (rowOf T p)
    have v1 := rint_half (rowOf T q)
    have u0 := rint_half (colOf T p)
    have h1q : ((rint (rowOf T p) : Int) : ℚ) ≤ r := by exact_mod_cast h1
    have h2q : (r : ℚ) + 1 ≤ ((rint (rowOf T q) : Int) : ℚ) := by exact_mod_cast h2
    have hw : 0 < rowOf T q - rowOf T p := by linarith
    set i0 : ℚ := ((rint (rowOf T p) : Int) : ℚ)
    set j0 : ℚ := ((rint (colOf T p) : Int) : ℚ)
    set t := ((r : ℚ) - i0) / (rowOf T q - rowOf T p) with ht
    have er : rowAt T p q t = rowOf T p + (r - i0) := by
      unfold rowAt
      rw [ht, div_mul_cancel₀ _ hw.ne']
    have hs : InStrip T r p q t := by
      refine ⟨div_nonneg (by linarith) hw.le, ?_, ?_, ?_⟩
      · rw [ht, div_le_one hw]; linarith
      · rw [er]; linarith
      · rw [er]; linarith
    have ec : ((((r : Int) - rint (rowOf T p) : Int) : ℚ) * ((colOf T q - colOf T p) / (rowOf T q - rowOf T p)) + j0) =
        colAt T p q t + (j0 - colOf T p) := by
      unfold colAt
      rw [ht]
      push_cast
      ring
    rw [ec]
    have hl := left_iff h hs
    have hb := h t hs
    unfold leftNum
    by_cases hc : colAt T p q t < c + 1 / 2
    · rw [if_pos (hl.2 hc)]
      rw [abs_of_neg (by linarith)] at hb
      have hle : rint (colAt T p q t + (j0 - colOf T p)) ≤ (c : Int) := by
        have hx : colAt T p q t + (j0 - colOf T p) < c + 1 / 2 := by linarith
        exact (rint_le_iff hx.ne).2 hx
      rw [if_pos ⟨h1, h2, hle⟩]
      rfl
    · rw [if_neg fun k => hc (hl.1 k)]
      have hge := not_lt.1 hc
      rw [abs_of_nonneg (by linarith)] at hb
      have hgt : ¬ rint (colAt T p q t + (j0 - colOf T p)) ≤ (c : Int) := by
        have hx : (c : ℚ) + 1 / 2 < colAt T p q t + (j0 - colOf T p) := by linarith
        intro k
        exact absurd ((rint_le_iff hx.ne').1 k) (not_lt.2 hx.le)
      rw [if_neg fun k => hgt k.2.2]
      rfl
  · rw [if_neg fun k => hr ⟨k.1, k.2.1⟩]
    have hm := rint_mono hV.le
    by_cases h1 : (r : Int) < rint (rowOf T p)
    · rw [if_pos h1, if_pos (by omega)]; ring
    · rw [if_neg h1, if_neg fun k => hr ⟨not_lt.1 h1, k⟩]; ring

theorem contrib_off {T : Xform} (hd : 0 < T.dx) (hsq : T.dy = T.dx) (hsx : T.sx = 0) (hsy : T.sy = 0) {r c : Nat} {p q : ℚ × ℚ}
    (h : Off T r c p q) : contrib T p q r c = leftNum T r c p q * (aboveSnap T r q - aboveSnap T r p) := by
  rcases lt_trichotomy p.2 q.2 with hlt | he | hlt
  · exact contrib_off_up hd hsq hsx hsy h hlt
  · have e1 : contrib T p q r c = 0 := by
      unfold contrib
      simp only [he, lt_irrefl, if_false]
    have e2 : aboveSnap T r q = aboveSnap T r p := by unfold aboveSnap rowOf; rw [he]
    rw [e1, e2, sub_self, mul_zero]
  · rw [contrib_swap, contrib_off_up hd hsq hsx hsy (off_swap h) hlt, leftNum_swap]
    ring

theorem wind_off_up {T : Xform} (hd : 0 < T.dx) (hsq : T.dy = T.dx) {r c : Nat} {p q : ℚ × ℚ} (h : Off T r c p q) (hlt : p.2 < q.2) :
    rowCross (toPt p) (toPt q) (midOf T r c).y - windStep (midOf T r c) (toPt p, toPt q) =
      leftNum T r c p q * (aboveMid T r q - aboveMid T r p) := by
  have hV : rowOf T p < rowOf T q := by
    unfold rowOf
    rw [hsq]
    exact div_lt_div_of_pos_right (by linarith) hd
  have ab : ∀ v : ℚ × ℚ, (midOf T r c).y < (toPt v).y ↔ (r : ℚ) + 1 / 2 < rowOf T v := by
    intro v
    unfold midOf toPt rowOf
    dsimp only
    rw [hsq, lt_div_iff₀ hd]
    constructor <;> intro k <;> linarith
  unfold rowCross aboveMid windStep
  simp only [ab, ← not_lt, gt_iff_lt, ge_iff_le]
  by_cases hq : (r : ℚ) + 1 / 2 < rowOf T q
  · by_cases hp : (r : ℚ) + 1 / 2 < rowOf T p
    · rw [if_pos hq, if_pos hp, if_neg fun k => k.1 hp, if_neg fun k => k.2 hq]; ring
    · rw [if_pos hq, if_neg hp, if_pos ⟨hp, hq⟩]
      have hw : 0 < rowOf T q - rowOf T p := by linarith
      have hp' := not_lt.1 hp
      set t := ((r : ℚ) + 1 / 2 - rowOf T p) / (rowOf T q - rowOf T p) with ht
      have er : rowAt T p q t = r + 1 / 2 := by
        unfold rowAt
        rw [ht, div_mul_cancel₀ _ hw.ne']
        ring
      have hs : InStrip T r p q t := by
        refine ⟨div_nonneg (by linarith) hw.le, ?_, ?_, ?_⟩
        · rw [ht, div_le_one hw]; linarith
        · rw [er]; linarith
        · rw [er]
      have hl := left_iff h hs
      have hb := h t hs
      have key : isleft (midOf T r c) (toPt p) (toPt q) = T.dx * T.dx * (rowOf T q - rowOf T p) * (colAt T p q t - (c + 1 / 2)) := by
        have e0 : (rowOf T q - rowOf T p) * (colAt T p q t - (c + 1 / 2)) =
            (colOf T p - (c + 1 / 2)) * (rowOf T q - rowOf T p) + (r + 1 / 2 - rowOf T p) * (colOf T q - colOf T p) := by
          unfold colAt
          have : t * (rowOf T q - rowOf T p) = r + 1 / 2 - rowOf T p := by rw [ht, div_mul_cancel₀ _ hw.ne']
          linear_combination (colOf T q - colOf T p) * this
        rw [mul_assoc, e0]
        unfold isleft midOf toPt colOf rowOf
        rw [hsq]
        field_simp
        ring
      rw [key]
      have hpos : 0 < T.dx * T.dx * (rowOf T q - rowOf T p) := by positivity
      unfold leftNum
      by_cases hc : colAt T p q t < c + 1 / 2
      · rw [if_pos (hl.2 hc), if_neg (by
          rw [not_lt]; exact mul_nonpos_of_nonneg_of_nonpos hpos.le (by linarith))]
        rfl
      · rw [if_neg fun k => hc (hl.1 k)]
        have hge := not_lt.1 hc
        rw [abs_of_nonneg (by linarith)] at hb
        rw [if_pos (mul_pos hpos (by linarith))]
        rfl
  · have hp : ¬ (r : ℚ) + 1 / 2 < rowOf T p := fun k => hq (k.trans hV)
    rw [if_neg hq, if_neg hp, if_neg fun k => hq k.2, if_neg fun k => hp k.1]; ring

theorem wind_off {T : Xform} (hd : 0 < T.dx) (hsq : T.dy = T.dx) {r c : Nat} {p q : ℚ × ℚ} (h : Off T r c p q) :
    rowCross (toPt p) (toPt q) (midOf T r c).y - windStep (midOf T r c) (toPt p, toPt q) =
      leftNum T r c p q * (aboveMid T r q - aboveMid T r p) := by
  rcases lt_trichotomy p.2 q.2 with hlt | he | hlt
  · exact wind_off_up hd hsq h hlt
  · have e2 : aboveMid T r q = aboveMid T r p := by unfold aboveMid rowOf; rw [he]
    rw [e2, sub_self, mul_zero]
    unfold rowCross windStep toPt
    simp only [he, sub_self]
    rw [if_neg fun k => absurd k.1 (not_le.2 k.2), if_neg fun k => absurd k.1 (not_lt.2 k.2)]
    rfl
  · have := wind_off_up hd hsq (off_swap h) hlt
    rw [rowCross_swap, windStep_swap, leftNum_swap] at this
    linear_combination -this

/-- Counting vertices above the row by their rounded rows or by their heights gives the same sum, because they differ only for vertices
in the strip, whose two sides are both left or both right. -/
theorem sums_agree {T : Xform} {r c : Nat} {pts : List (ℚ × ℚ)} (hoff : ∀ e, Off T r c (cyc pts e) (cyc pts (e + 1))) :
    ∑ e ∈ Finset.range pts.length, leftNum T r c (cyc pts e) (cyc pts (e + 1)) *
        (aboveSnap T r (cyc pts (e + 1)) - aboveSnap T r (cyc pts e)) =
      ∑ e ∈ Finset.range pts.length, leftNum T r c (cyc pts e) (cyc pts (e + 1)) *
        (aboveMid T r (cyc pts (e + 1)) - aboveMid T r (cyc pts e)) := by
  rw [← sub_eq_zero, ← Finset.sum_sub_distrib]
  let g : Nat → Int := fun e => aboveSnap T r (cyc pts e) - aboveMid T r (cyc pts e)
  let L : Nat → Int := fun e => leftNum T r c (cyc pts e) (cyc pts (e + 1))
  have hg : ∀ e, L e * g (e + 1) = L (e + 1) * g (e + 1) := by
    intro e
    by_cases hz : g (e + 1) = 0
    · rw [hz, mul_zero, mul_zero]
    · congr 1
      have hv : rowOf T (cyc pts (e + 1)) = r + 1 / 2 := by
        have hb := rint_half (rowOf T (cyc pts (e + 1)))
        by_contra hne
        apply hz
        change aboveSnap T r (cyc pts (e + 1)) - aboveMid T r (cyc pts (e + 1)) = 0
        unfold aboveSnap aboveMid
        have hi : rint (rowOf T (cyc pts (e + 1))) ≤ r ↔ rowOf T (cyc pts (e + 1)) < r + 1 / 2 := rint_le_iff hne
        by_cases k : rowOf T (cyc pts (e + 1)) < r + 1 / 2
        · rw [if_neg (not_lt.2 (hi.2 k)), if_neg (not_lt.2 k.le)]; rfl
        · rw [if_pos (not_le.1 fun m => k (hi.1 m)), if_pos (lt_of_le_of_ne (not_lt.1 k) (Ne.symm hne))]; rfl
      have s1 : InStrip T r (cyc pts e) (cyc pts (e + 1)) 1 := by
        have : rowAt T (cyc pts e) (cyc pts (e + 1)) 1 = r + 1 / 2 := by rw [← hv]; unfold rowAt; ring
        exact ⟨by norm_num, le_refl _, by rw [this]; linarith, by rw [this]⟩
      have s2 : InStrip T r (cyc pts (e + 1)) (cyc pts (e + 1 + 1)) 0 := by
        have : rowAt T (cyc pts (e + 1)) (cyc pts (e + 1 + 1)) 0 = r + 1 / 2 := by rw [← hv]; unfold rowAt; ring
        exact ⟨le_refl _, by norm_num, by rw [this]; linarith, by rw [this]⟩
      have l1 := left_iff (hoff e) s1
      have l2 := left_iff (hoff (e + 1)) s2
      have ec : colAt T (cyc pts e) (cyc pts (e + 1)) 1 = colAt T (cyc pts (e + 1)) (cyc pts (e + 1 + 1)) 0 := by unfold colAt; ring
      rw [ec, ← l2] at l1
      change leftNum T r c _ _ = leftNum T r c _ _
      unfold leftNum
      by_cases k : LeftIn T r c (cyc pts e) (cyc pts (e + 1))
      · rw [if_pos k, if_pos (l1.1 k)]
      · rw [if_neg k, if_neg fun m => k (l1.2 m)]
  have he : ∀ e, leftNum T r c (cyc pts e) (cyc pts (e + 1)) * (aboveSnap T r (cyc pts (e + 1)) - aboveSnap T r (cyc pts e)) -
      leftNum T r c (cyc pts e) (cyc pts (e + 1)) * (aboveMid T r (cyc pts (e + 1)) - aboveMid T r (cyc pts e)) =
      L (e + 1) * g (e + 1) - L e * g e := by
    intro e
    rw [← hg e]
    change _ = leftNum T r c (cyc pts e) (cyc pts (e + 1)) * (aboveSnap T r (cyc pts (e + 1)) - aboveMid T r (cyc pts (e + 1))) -
      leftNum T r c (cyc pts e) (cyc pts (e + 1)) * (aboveSnap T r (cyc pts e) - aboveMid T r (cyc pts e))
    ring
  rw [Finset.sum_congr rfl fun e _ => he e, Finset.sum_range_sub (fun e => L e * g e)]
  have e0 : cyc pts pts.length = cyc pts 0 := by have := cyc_add pts 0; rwa [zero_add] at this
  have e1 : cyc pts (pts.length + 1) = cyc pts (0 + 1) := by
    have := cyc_add pts 1
    rw [show pts.length + 1 = 1 + pts.length by ring, this]
  change leftNum T r c (cyc pts pts.length) (cyc pts (pts.length + 1)) * (aboveSnap T r (cyc pts pts.length) - aboveMid T r (cyc pts pts.length)) -
    leftNum T r c (cyc pts 0) (cyc pts (0 + 1)) * (aboveSnap T r (cyc pts 0) - aboveMid T r (cyc pts 0)) = 0
  rw [e0, e1, sub_self]

theorem cyc_edge {pts : List (ℚ × ℚ)} (hne : pts ≠ []) (e : Nat) : IsEdge (pts.map toPt) (toPt (cyc pts e)) (toPt (cyc pts (e + 1))) := by
  rw [← mem_ringEdges, ringEdges_cyc]
  have hn : 0 < pts.length := List.length_pos_iff.2 hne
  refine List.mem_map.2 ⟨e % pts.length, List.mem_range.2 (Nat.mod_lt _ hn), ?_⟩
  unfold cyc
  simp [Nat.add_mod]

theorem total_off {T : Xform} (hd : 0 < T.dx) (hsq : T.dy = T.dx) (hsx : T.sx = 0) (hsy : T.sy = 0)
    {pts : List (ℚ × ℚ)} (hne : pts ≠ []) (r c : Nat) (hoff : ∀ a b, IsEdge (pts.map toPt) a b → ¬ PassesBelow T r c a b) :
    total T pts r c = - windCount (midOf T r c) (pts.map toPt) := by
  have ho : ∀ e, Off T r c (cyc pts e) (cyc pts (e + 1)) := fun e => off_of hd hsq (hoff _ _ (cyc_edge hne e))
  unfold total
  rw [windCount_cyc, ← zero_sub, ← rowCross_sum (midOf T r c).y pts, ← Finset.sum_sub_distrib,
    Finset.sum_congr rfl fun e _ => contrib_off hd hsq hsx hsy (ho e), Finset.sum_congr rfl fun e _ => wind_off hd hsq (ho e)]
  exact sums_agree ho

theorem off_mask {T : Xform} (hd : 0 < T.dx) (hsq : T.dy = T.dx) (hsx : T.sx = 0) (hsy : T.sy = 0) (ny nx : Nat)
    {pts : List (ℚ × ℚ)} (hne : pts ≠ []) :
    ∃ M, maskPoly T ny nx pts = .ok M ∧ M.ny = ny ∧ M.nx = nx ∧ ∀ r c : Nat, r < ny → c < nx →
      (∀ a b, IsEdge (pts.map toPt) a b → ¬ PassesBelow T r c a b) →
      M.get r c = decide (windCount (midOf T r c) (pts.map toPt) % 256 ≠ 0) := by
  have hdy : 0 < T.dy := by rw [hsq]; exact hd
  have hU := northUp_pos hd hdy ny nx
  obtain ⟨-, a2⟩ := maskPoly_spec T ny nx pts hne (by rw [hU]; exact solid_pos hd hdy hsx)
  have hs : Safe T pts := Or.inl hsy
  obtain ⟨M, e1, e2, e3, e4⟩ := a2 (by rintro ⟨e, -, h⟩; exact hs.not_raises ny nx e h)
  refine ⟨M, e1, e2, e3, ?_⟩
  intro r c hr hc hoff
  rw [e4 r c hr hc, hU, total_off hd hsq hsx hsy hne r c hoff]
  congr 1
  rw [eq_iff_iff, ne_eq, ne_eq, ← Int.dvd_iff_emod_eq_zero, ← Int.dvd_iff_emod_eq_zero, dvd_neg]

/-- C66, for polygons of any shape with vertices anywhere, on a grid with square cells, positive spacing and no skew: a pixel is kept
exactly if one of the polygons contains the centre of its cell, as decided by `Polygon.contains`, for every cell such that no side
passes through the box below its centre (as wide and high as a cell) and no polygon winds round the centre 256 times or more.  So the
mask can only be wrong for cells that a side passes through, or passes below within half a cell.

Missing for the full claim: those cells, for which it fails (`C66_violated_slanting_side`), and oblong cells, negative spacings and skews. -/
theorem C66_away_partial {g : RGrid α} {H W : Nat} {Ps : List (Int → Int → α)} (hg : g.Holds H W Ps)
    (zero garb : α) (hd : 0 < g.t.dx) (hsq : g.t.dy = g.t.dx) (hsx : g.t.sx = 0) (hsy : g.t.sy = 0)
    (polys : List (List (ℚ × ℚ))) (hpolys : ∀ pts ∈ polys, pts ≠ []) :
    ∃ g' Ps', g.maskByPoly zero garb polys = .ok g' ∧ g'.t = g.t ∧ g'.nodata = g.nodata ∧
      g'.Holds H W Ps' ∧ Ps'.length = Ps.length ∧
      ∀ (k : Nat) P P', Ps[k]? = some P → Ps'[k]? = some P' → ∀ y x : Nat, y < H → x < W →
        (∀ pts ∈ polys, (∀ a b, IsEdge (pts.map toPt) a b → ¬ PassesBelow g.t y x a b) ∧
          |windCount (midOf g.t y x) (pts.map toPt)| < 256) →
        ((∃ pts ∈ polys, (Poly.mk (pts.map toPt) []).contains (midOf g.t y x) = true) → P' y x = P y x) ∧
        (¬ (∃ pts ∈ polys, (Poly.mk (pts.map toPt) []).contains (midOf g.t y x) = true) → P' y x = g.nodata) := by
  have hm : ∀ pts ∈ polys, _ := fun pts hq => off_mask hd hsq hsx hsy H W (hpolys pts hq)
  obtain ⟨g', Ps', e1, e2, e3, e4, e5, e6⟩ := C66_keeps_or_erases hg zero garb polys (by
    intro p hp
    obtain ⟨M, h, -⟩ := hm p hp
    exact ⟨M, h⟩)
  refine ⟨g', Ps', e1, e2, e3, e4, e5, ?_⟩
  intro k P P' hP hP' y x hy hx hoff
  have hcell : ∀ pts ∈ polys, CoversCell g.t H W pts y x ↔ (Poly.mk (pts.map toPt) []).contains (midOf g.t y x) = true := by
    intro pts hq
    obtain ⟨M, h, -, -, h4⟩ := hm pts hq
    obtain ⟨o1, o2⟩ := hoff pts hq
    unfold CoversCell
    rw [maskCell_ok h, Except.ok.injEq, h4 y x hy hx o1]
    simp only [Poly.contains, Poly.anyContains, ringContains, Bool.not_false, Bool.and_true, decide_eq_true_eq]
    generalize windCount (midOf g.t y x) (pts.map toPt) = w at o2
    rw [abs_lt] at o2
    omega
  have hiff : (∃ p ∈ polys, CoversCell g.t H W p y x) ↔
      ∃ pts ∈ polys, (Poly.mk (pts.map toPt) []).contains (midOf g.t y x) = true := by
    constructor
    · rintro ⟨p, hp, hc⟩; exact ⟨p, hp, (hcell p hp).1 hc⟩
    · rintro ⟨p, hp, hc⟩; exact ⟨p, hp, (hcell p hp).2 hc⟩
  rw [← hiff]
  exact e6 k P P' hP hP' y x hy hx

/-- Non-vacuity: a triangle with vertices off the corners of cells; its sides do not pass below the centre of the cell in row 1 and
column 2, which it contains. -/
example : (Poly.mk ([((1 : ℚ) / 5, (1 : ℚ) / 10), (5, 1 / 5), (4, 5)].map toPt) []).contains (midOf ⟨0, 0, 1, 1, 0, 0⟩ 1 2) = true ∧
    (∀ a b, IsEdge ([((1 : ℚ) / 5, (1 : ℚ) / 10), (5, 1 / 5), (4, 5)].map toPt) a b → ¬ PassesBelow ⟨0, 0, 1, 1, 0, 0⟩ 1 2 a b) := by
  refine ⟨by decide +kernel, ?_⟩
  intro a b hab
  rw [← mem_ringEdges] at hab
  have : (a, b) = (⟨1 / 5, 1 / 10⟩, ⟨5, 1 / 5⟩) ∨ (a, b) = (⟨5, 1 / 5⟩, ⟨4, 5⟩) ∨ (a, b) = (⟨4, 5⟩, ⟨1 / 5, 1 / 10⟩) := by
    simpa [ringEdges, toPt] using hab
  rintro ⟨t, t0, t1, h1, h2, h3⟩
  rw [abs_le] at h1
  rcases this with h | h | h <;> obtain ⟨rfl, rfl⟩ := Prod.mk.inj h <;> simp only [between, midOf] at h1 h2 h3 <;> norm_num at h1 h2 h3 <;>
    linarith [h1.1, h1.2]

end Karta.Grid
