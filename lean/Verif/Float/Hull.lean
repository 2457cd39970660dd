import Verif.Float.Units
import Verif.Vec.HullAngle
import Mathlib.Analysis.Real.Pi.Bounds
import Mathlib.Analysis.SpecialFunctions.Trigonometric.Bounds

/-!
# The convex hull in floating point

Model of the planar convex hull (karta/vector/convexhull.pyx 6-82, karta/vector/geometry.py 600-613) with rounded arithmetic, and property
C180.  `fl` is the rounding of one operation; what is assumed about it is said in the theorems.
-/

namespace Karta.Float.HullF
open Karta Karta.Vec Karta.Vec.Hull Karta.Float

/-! ### Model -/

/-- The functions of the C library, and a constant. -/
structure Lib where
  /-- `atan2(v, u)` -/
  atan2 : ℚ → ℚ → ℚ
  /-- `M_PI_2` -/
  halfPi : ℚ
  /-- `dist2` (vectorgeo.pyx 36-37); its value makes no difference to what is proved -/
  dist : Pt → Pt → ℚ

variable (fl : ℚ → ℚ) (lib : Lib)

/-- `isleft` (convexhull.pyx 6-9). -/
def isleftF (a b c : Pt) : Bool :=
  decide (0 < fl (fl (fl (b.x - a.x) * fl (c.y - a.y)) - fl (fl (b.y - a.y) * fl (c.x - a.x))))

/-- `M_PI_2 - azimuth(leftmost, p)` (convexhull.pyx 46, vectorgeo.pyx 165-167). -/
def azF (L p : Pt) : ℚ := fl (lib.halfPi - lib.atan2 (fl (p.x - L.x)) (fl (p.y - L.y)))

/-- The order of the pairs `(az, i)` (convexhull.pyx 47-49). -/
def leF (a b : ℚ × Nat) : Prop := a.1 < b.1 ∨ (a.1 = b.1 ∧ a.2 ≤ b.2)

instance (a b : ℚ × Nat) : Decidable (leF a b) := by unfold leF; infer_instance

/-- `azimuth_indices` (convexhull.pyx 37-49). -/
def azimuthIndicesF (P : List Pt) : List (ℚ × Nat) :=
  List.insertionSort leF
    (((List.range P.length).filter fun i => i ≠ leftmost P).map fun i => (azF fl lib (ptAt P (leftmost P)) (ptAt P i), i))

/-- The loop that drops vertices in the same direction (convexhull.pyx 51-66). -/
def dedupF (P : List Pt) (L : Pt) (az : List (ℚ × Nat)) :
    List (ℚ × Nat) → (i last : Nat) → (lastpt : Pt) → (indices : List Nat) → List Nat
  | [], _, _, _, indices => indices
  | e :: es, i, last, lastpt, indices =>
    if e.1 = (az.getD last (0, 0)).1 then
      if lib.dist L (ptAt P e.2) > lib.dist L lastpt then
        dedupF P L az es (i + 1) i (ptAt P i) (indices.dropLast ++ [e.2])
      else dedupF P L az es (i + 1) last lastpt indices
    else dedupF P L az es (i + 1) last lastpt (indices ++ [e.2])

/-- `while not isleft(hull[-2], hull[-1], i): hull.pop()` (convexhull.pyx 77-80), with the hull listed from its end. -/
def popWhileF (P : List Pt) (i : Nat) : List Nat → Except Err (List Nat)
  | b :: a :: st => if isleftF fl (ptAt P a) (ptAt P b) (ptAt P i) then .ok (b :: a :: st) else popWhileF P i (a :: st)
  | _ => .error .indexError

/-- `for i in indices[2:]` (convexhull.pyx 76-81). -/
def scanF (P : List Pt) : List Nat → List Nat → Except Err (List Nat)
  | [], st => .ok st
  | i :: is, st =>
    match popWhileF fl P i st with
    | .error e => .error e
    | .ok st' => scanF P is (i :: st')

/-- `convexhull` (convexhull.pyx 18-82). -/
def convexhullF (ring : Bool) (ps : List Pt) : Except Err (List Nat) :=
  let P := readPts ring ps
  if P = [] then .error .indexError
  else
    match azimuthIndicesF fl lib P with
    | [] => .error .indexError
    | e :: es =>
      match dedupF lib P (ptAt P (leftmost P)) (e :: es) es 1 0 (ptAt P (leftmost P)) [e.2] with
      | [] => .error .indexError
      | [i] => .ok [leftmost P, i]
      | [i, j] => .ok [leftmost P, i, j]
      | i :: j :: is =>
        match scanF fl P is [j, i, leftmost P] with
        | .error x => .error x
        | .ok st => .ok st.reverse

/-- `convex_hull` of a geometry in a planar coordinate system (geometry.py 600-613): the vertices of the polygon. -/
def convexHullF (ring : Bool) (ps : List Pt) : Except Err (List Pt) :=
  (convexhullF fl lib ring ps).map fun idx => idx.map (ptAt (readPts ring ps))

/-! ### Assumptions -/

/-- The library is accurate: `atan2` and `M_PI_2` are off by less than a unit in the last place of pi, and `atan2(0, 0) = 0`. -/
structure Lib.Accurate (lib : Lib) : Prop where
  atan2_err : ∀ v u : ℚ, |(lib.atan2 v u : ℝ) - Complex.arg ⟨(u : ℝ), (v : ℝ)⟩| ≤ 1 / 2 ^ 51
  pi_err : |(lib.halfPi : ℝ) - Real.pi / 2| ≤ 1 / 2 ^ 51
  zero : lib.atan2 0 0 = 0

/-- A rounding with a relative error of half a unit in the last of 53 places, but for results that are next to nothing. -/
def Close (fl : ℚ → ℚ) : Prop := ∀ x, |fl x - x| ≤ 1 / 2 ^ 53 * |x| + 1 / 2 ^ 60

/-! ### Azimuths are far enough apart -/

/-- The position is in whole units, at most `B` of them. -/
def UnitsPt (k B : ℤ) (p : Pt) : Prop := InUnits k B p.x ∧ InUnits k B p.y

theorem arg_bounds {L p : Pt} (h : Half L p) : -(Real.pi / 2) ≤ azimuthReal L p ∧ azimuthReal L p ≤ Real.pi / 2 := by
  unfold azimuthReal
  have h0 : (0 : ℝ) ≤ ((p.x - L.x : ℚ) : ℝ) := by
    rcases h with h | ⟨h, _⟩
    · exact_mod_cast (sub_pos.2 h).le
    · rw [h]; simp
  have h1 : 0 ≤ Complex.arg ⟨((p.y - L.y : ℚ) : ℝ), ((p.x - L.x : ℚ) : ℝ)⟩ := Complex.arg_nonneg_iff.2 h0
  have h2 := Complex.arg_le_pi ⟨((p.y - L.y : ℚ) : ℝ), ((p.x - L.x : ℚ) : ℝ)⟩
  constructor <;> linarith

/-- The length of the way from `L` to `p`. -/
noncomputable def way (L p : Pt) : ℝ := ‖(⟨((p.y - L.y : ℚ) : ℝ), ((p.x - L.x : ℚ) : ℝ)⟩ : ℂ)‖

theorem way_cos (L p : Pt) : way L p * Real.cos (azimuthReal L p) = ((p.x - L.x : ℚ) : ℝ) := by
  unfold way azimuthReal
  rw [Real.cos_pi_div_two_sub]
  exact Complex.norm_mul_sin_arg _

theorem way_sin (L p : Pt) : way L p * Real.sin (azimuthReal L p) = ((p.y - L.y : ℚ) : ℝ) := by
  unfold way azimuthReal
  rw [Real.sin_pi_div_two_sub]
  exact Complex.norm_mul_cos_arg _

theorem way_turn (L p q : Pt) : way L p * way L q * Real.sin (azimuthReal L q - azimuthReal L p) = ((turn L p q : ℚ) : ℝ) := by
  rw [Real.sin_sub]
  have e : ((turn L p q : ℚ) : ℝ) = ((p.x - L.x : ℚ) : ℝ) * ((q.y - L.y : ℚ) : ℝ) - ((p.y - L.y : ℚ) : ℝ) * ((q.x - L.x : ℚ) : ℝ) := by
    unfold turn; push_cast; ring
  rw [e, ← way_cos, ← way_cos, ← way_sin, ← way_sin]
  ring

theorem way_le {k : ℤ} {L p : Pt} (hL : UnitsPt k (2 ^ 22) L) (hp : UnitsPt k (2 ^ 22) p) : way L p ≤ 2 ^ 24 * (2 : ℝ) ^ k := by
  obtain ⟨n, hn, en⟩ := hp.1.sub hL.1
  obtain ⟨m, hm, em⟩ := hp.2.sub hL.2
  have hk : (0 : ℝ) < (2 : ℝ) ^ k := by positivity
  refine le_trans (Complex.norm_le_abs_re_add_abs_im _) ?_
  dsimp only
  rw [en, em]
  push_cast
  rw [abs_mul, abs_mul, abs_of_pos hk]
  have h1 : |(n : ℝ)| ≤ 2 ^ 23 := by
    have : |n| ≤ 2 ^ 23 := le_trans hn (by norm_num)
    exact_mod_cast this
  have h2 : |(m : ℝ)| ≤ 2 ^ 23 := by
    have : |m| ≤ 2 ^ 23 := le_trans hm (by norm_num)
    exact_mod_cast this
  nlinarith

theorem turn_units {k : ℤ} {L p q : Pt} (hL : UnitsPt k (2 ^ 22) L) (hp : UnitsPt k (2 ^ 22) p) (hq : UnitsPt k (2 ^ 22) q)
    (h : 0 < turn L p q) : (2 : ℝ) ^ k * (2 : ℝ) ^ k ≤ ((turn L p q : ℚ) : ℝ) := by
  obtain ⟨n, hn, en⟩ := ((hp.1.sub hL.1).mul (hq.2.sub hL.2)).sub ((hp.2.sub hL.2).mul (hq.1.sub hL.1))
  have e : turn L p q = n * 2 ^ (k + k) := by rw [← en]; rfl
  have hk : (0 : ℚ) < (2 : ℚ) ^ (k + k) := by positivity
  have hn0 : 0 < n := by
    rw [e] at h
    have := pos_of_mul_pos_left h hk.le
    exact_mod_cast this
  rw [e]
  push_cast
  rw [zpow_add₀ (by norm_num : (2 : ℝ) ≠ 0)]
  have h1 : (1 : ℝ) ≤ n := by exact_mod_cast hn0
  have h2 : (0 : ℝ) < (2 : ℝ) ^ k * (2 : ℝ) ^ k := by positivity
  nlinarith

/-- Two directions that differ do so by more than the errors of the azimuths. -/
theorem separated {k : ℤ} {L p q : Pt} (hL : UnitsPt k (2 ^ 22) L) (hp : UnitsPt k (2 ^ 22) p) (hq : UnitsPt k (2 ^ 22) q)
    (Hp : Half L p) (Hq : Half L q) (h : 0 < turn L p q) : azimuthReal L p + 1 / 2 ^ 48 ≤ azimuthReal L q := by
  have hk : (0 : ℝ) < (2 : ℝ) ^ k := by positivity
  have t := turn_units hL hp hq h
  have e := way_turn L p q
  have w1 := way_le hL hp
  have w2 := way_le hL hq
  have n1 : 0 ≤ way L p := norm_nonneg _
  have n2 : 0 ≤ way L q := norm_nonneg _
  have b1 := arg_bounds Hp
  have b2 := arg_bounds Hq
  have hpos : 0 < way L p * way L q * Real.sin (azimuthReal L q - azimuthReal L p) := by
    rw [e]; exact_mod_cast h
  have hsin : 0 < Real.sin (azimuthReal L q - azimuthReal L p) := pos_of_mul_pos_right hpos (mul_nonneg n1 n2)
  have hd : 0 < azimuthReal L q - azimuthReal L p := by
    by_contra hc
    have := Real.sin_nonpos_of_nonpos_of_neg_pi_le (not_lt.1 hc) (by linarith)
    linarith
  have hle := Real.sin_le hd.le
  have hw : way L p * way L q ≤ 2 ^ 24 * (2 : ℝ) ^ k * (2 ^ 24 * (2 : ℝ) ^ k) := mul_le_mul w1 w2 n2 (by positivity)
  have h1 : (2 : ℝ) ^ k * (2 : ℝ) ^ k ≤ 2 ^ 24 * (2 : ℝ) ^ k * (2 ^ 24 * (2 : ℝ) ^ k) * Real.sin (azimuthReal L q - azimuthReal L p) := by
    refine le_trans t ?_
    rw [← e]
    exact mul_le_mul_of_nonneg_right hw hsin.le
  have h2 : 1 ≤ 2 ^ 48 * Real.sin (azimuthReal L q - azimuthReal L p) := by
    have hkk : (0 : ℝ) < (2 : ℝ) ^ k * (2 : ℝ) ^ k := by positivity
    have h3 : (2 : ℝ) ^ k * (2 : ℝ) ^ k * 1 ≤ (2 : ℝ) ^ k * (2 : ℝ) ^ k * (2 ^ 48 * Real.sin (azimuthReal L q - azimuthReal L p)) := by
      nlinarith
    exact le_of_mul_le_mul_left h3 hkk
  have h4 : 1 / 2 ^ 48 ≤ Real.sin (azimuthReal L q - azimuthReal L p) := by
    rw [div_le_iff₀ (by positivity)]; linarith
  linarith

/-- No direction comes close to straight up. -/
theorem below_top {k : ℤ} {L p : Pt} (hL : UnitsPt k (2 ^ 22) L) (hp : UnitsPt k (2 ^ 22) p) (Hp : Half L p) :
    azimuthReal L p + 1 / 2 ^ 48 ≤ Real.pi / 2 := by
  have hk : (0 : ℝ) < (2 : ℝ) ^ k := by positivity
  have b1 := arg_bounds Hp
  have w1 := way_le hL hp
  have n1 : 0 ≤ way L p := norm_nonneg _
  have hpi := Real.pi_gt_three
  rcases Hp with h | ⟨h, h'⟩
  · obtain ⟨n, hn, en⟩ := hp.1.sub hL.1
    have hn0 : 0 < n := by
      have h1 : (0 : ℚ) < p.x - L.x := sub_pos.2 h
      rw [en] at h1
      have := pos_of_mul_pos_left h1 (by positivity)
      exact_mod_cast this
    have e := way_cos L p
    rw [en] at e
    push_cast at e
    have h1 : (1 : ℝ) ≤ n := by exact_mod_cast hn0
    have hc : (2 : ℝ) ^ k ≤ 2 ^ 24 * (2 : ℝ) ^ k * Real.cos (azimuthReal L p) := by
      have hcos := Real.cos_nonneg_of_neg_pi_div_two_le_of_le b1.1 b1.2
      have := mul_le_mul_of_nonneg_right w1 hcos
      nlinarith
    have h2 : 1 ≤ 2 ^ 24 * Real.cos (azimuthReal L p) := by
      have h3 : (2 : ℝ) ^ k * 1 ≤ (2 : ℝ) ^ k * (2 ^ 24 * Real.cos (azimuthReal L p)) := by nlinarith
      exact le_of_mul_le_mul_left h3 hk
    have h4 : Real.cos (azimuthReal L p) ≤ Real.pi / 2 - azimuthReal L p := by
      rw [← Real.sin_pi_div_two_sub]
      exact Real.sin_le (by linarith)
    have h5 : (1 : ℝ) / 2 ^ 48 ≤ 1 / 2 ^ 24 := by norm_num
    have h6 : (1 : ℝ) / 2 ^ 24 ≤ Real.cos (azimuthReal L p) := by rw [div_le_iff₀ (by positivity)]; linarith
    linarith
  · have e := way_sin L p
    have h1 : ((p.y - L.y : ℚ) : ℝ) < 0 := by exact_mod_cast sub_neg.2 h'
    have hs : Real.sin (azimuthReal L p) < 0 := by
      by_contra hc
      have := mul_nonneg n1 (not_lt.1 hc)
      linarith
    have : azimuthReal L p < 0 := by
      by_contra hc
      have := Real.sin_nonneg_of_nonneg_of_le_pi (not_lt.1 hc) (by linarith)
      linarith
    have h5 : (1 : ℝ) / 2 ^ 48 ≤ 1 := by norm_num
    linarith

variable {fl lib}

/-- The error of a computed azimuth. -/
theorem azF_err (hc : Close fl) (ha : lib.Accurate) {L p : Pt} (e1 : fl (p.x - L.x) = p.x - L.x) (e2 : fl (p.y - L.y) = p.y - L.y) :
    |((azF fl lib L p : ℚ) : ℝ) - azimuthReal L p| ≤ 1 / 2 ^ 49 - 1 / 2 ^ 54 := by
  unfold azF azimuthReal
  rw [e1, e2]
  have h1 := ha.atan2_err (p.x - L.x) (p.y - L.y)
  have h2 := ha.pi_err
  have h3 : |((fl (lib.halfPi - lib.atan2 (p.x - L.x) (p.y - L.y)) : ℚ) : ℝ) - ((lib.halfPi - lib.atan2 (p.x - L.x) (p.y - L.y) : ℚ) : ℝ)| ≤
      1 / 2 ^ 53 * |((lib.halfPi - lib.atan2 (p.x - L.x) (p.y - L.y) : ℚ) : ℝ)| + 1 / 2 ^ 60 := by
    have := (Rat.cast_le (K := ℝ)).2 (hc (lib.halfPi - lib.atan2 (p.x - L.x) (p.y - L.y)))
    push_cast at this ⊢
    exact this
  have h4 := Complex.abs_arg_le_pi ⟨((p.y - L.y : ℚ) : ℝ), ((p.x - L.x : ℚ) : ℝ)⟩
  generalize Complex.arg ⟨((p.y - L.y : ℚ) : ℝ), ((p.x - L.x : ℚ) : ℝ)⟩ = A at *
  generalize lib.atan2 (p.x - L.x) (p.y - L.y) = a at *
  generalize fl (lib.halfPi - a) = r at *
  generalize lib.halfPi = π2 at *
  push_cast at h3
  have hp1 := Real.pi_gt_three
  have hp2 := Real.pi_lt_four
  rw [abs_le] at h1 h2 h4
  have h5 : |(π2 : ℝ) - a| ≤ 7 := by rw [abs_le]; norm_num at *; constructor <;> linarith
  have h6 : |(r : ℝ) - (π2 - a)| ≤ 1 / 2 ^ 50 - 1 / 2 ^ 54 := by
    refine le_trans h3 ?_
    norm_num at *
    linarith
  rw [abs_le] at h6 ⊢
  norm_num at *
  constructor <;> linarith

theorem units_diff {R : ℚ → ℚ} {k : ℤ} (hR : ∀ x, InUnits k (2 ^ 23) x → R x = x) {L p : Pt} (hL : UnitsPt k (2 ^ 22) L)
    (hp : UnitsPt k (2 ^ 22) p) : R (p.x - L.x) = p.x - L.x ∧ R (p.y - L.y) = p.y - L.y :=
  ⟨hR _ ((hp.1.sub hL.1).mono (by norm_num)), hR _ ((hp.2.sub hL.2).mono (by norm_num))⟩

theorem azF_lt (hc : Close fl) (ha : lib.Accurate) {k : ℤ} (hR : ∀ x, InUnits k (2 ^ 23) x → fl x = x) {L p q : Pt}
    (hL : UnitsPt k (2 ^ 22) L) (hp : UnitsPt k (2 ^ 22) p) (hq : UnitsPt k (2 ^ 22) q) (Hp : Half L p) (Hq : Half L q)
    (h : 0 < turn L p q) : azF fl lib L p < azF fl lib L q := by
  have s := separated hL hp hq Hp Hq h
  have a := abs_le.1 (azF_err hc ha (units_diff hR hL hp).1 (units_diff hR hL hp).2)
  have b := abs_le.1 (azF_err hc ha (units_diff hR hL hq).1 (units_diff hR hL hq).2)
  have : ((azF fl lib L p : ℚ) : ℝ) < ((azF fl lib L q : ℚ) : ℝ) := by norm_num [-Rat.cast_lt] at s a b ⊢; linarith
  exact_mod_cast this

theorem azF_top (hc : Close fl) (ha : lib.Accurate) {k : ℤ} (hR : ∀ x, InUnits k (2 ^ 23) x → fl x = x) {L p : Pt}
    (hL : UnitsPt k (2 ^ 22) L) (hp : UnitsPt k (2 ^ 22) p) (Hp : Half L p) : azF fl lib L p < azF fl lib L L := by
  have s := below_top hL hp Hp
  have a := abs_le.1 (azF_err hc ha (units_diff hR hL hp).1 (units_diff hR hL hp).2)
  have b := abs_le.1 (azF_err hc ha (units_diff hR hL hL).1 (units_diff hR hL hL).2)
  have e : azimuthReal L L = Real.pi / 2 := by
    unfold azimuthReal
    have : (⟨((L.y - L.y : ℚ) : ℝ), ((L.x - L.x : ℚ) : ℝ)⟩ : ℂ) = 0 := by apply Complex.ext <;> simp
    rw [this, Complex.arg_zero, sub_zero]
  rw [e] at b
  have : ((azF fl lib L p : ℚ) : ℝ) < ((azF fl lib L L : ℚ) : ℝ) := by norm_num [-Rat.cast_lt] at s a b ⊢; linarith
  exact_mod_cast this

/-- In whole units the test for turns is exact. -/
theorem isleftF_eq (R : Rounding) {k : ℤ} {a b c : Pt} (ha : UnitsPt k (2 ^ 22) a) (hb : UnitsPt k (2 ^ 22) b) (hc : UnitsPt k (2 ^ 22) c) :
    isleftF R.fl a b c = isleft a b c := by
  have d : ∀ {p q : Pt}, UnitsPt k (2 ^ 22) p → UnitsPt k (2 ^ 22) q → InUnits k (2 ^ 23) (p.x - q.x) ∧ InUnits k (2 ^ 23) (p.y - q.y) :=
    fun hp hq => ⟨(hp.1.sub hq.1).mono (by norm_num), (hp.2.sub hq.2).mono (by norm_num)⟩
  have f : ∀ {x : ℚ}, InUnits k (2 ^ 23) x → R.fl x = x := fun h => h.exact R (by norm_num)
  have g : ∀ {x y : ℚ}, InUnits k (2 ^ 23) x → InUnits k (2 ^ 23) y → R.fl (x * y) = x * y := fun hx hy => (hx.mul hy).exact R (by norm_num)
  unfold isleftF isleft
  rw [f (d hb ha).1, f (d hc ha).2, f (d hb ha).2, f (d hc ha).1, g (d hb ha).1 (d hc ha).2, g (d hb ha).2 (d hc ha).1,
    (((d hb ha).1.mul (d hc ha).2).sub ((d hb ha).2.mul (d hc ha).1)).exact R (by norm_num)]
  rfl

/-! ### The sorted list -/

instance : Std.Total leF := ⟨fun a b => by
  unfold leF
  rcases lt_trichotomy a.1 b.1 with h | h | h
  · exact Or.inl (Or.inl h)
  · rcases Nat.le_total a.2 b.2 with h' | h'
    · exact Or.inl (Or.inr ⟨h, h'⟩)
    · exact Or.inr (Or.inr ⟨h.symm, h'⟩)
  · exact Or.inr (Or.inl h)⟩

instance : IsTrans _ leF := ⟨fun a b c h1 h2 => by
  unfold leF at *
  rcases h1 with h1 | ⟨h1, h1'⟩ <;> rcases h2 with h2 | ⟨h2, h2'⟩
  · exact Or.inl (h1.trans h2)
  · exact Or.inl (h2 ▸ h1)
  · exact Or.inl (h1 ▸ h2)
  · exact Or.inr ⟨h1.trans h2, h1'.trans h2'⟩⟩

theorem leF_le {a b : ℚ × Nat} (h : leF a b) : a.1 ≤ b.1 := by
  rcases h with h | ⟨h, _⟩
  · exact h.le
  · exact h.le

theorem azF_sorted (fl : ℚ → ℚ) (lib : Lib) (P : List Pt) : (azimuthIndicesF fl lib P).Pairwise leF := List.pairwise_insertionSort _ _

theorem azF_mem {fl : ℚ → ℚ} {lib : Lib} {P : List Pt} {e : ℚ × Nat} : e ∈ azimuthIndicesF fl lib P ↔
    e.2 < P.length ∧ e.2 ≠ leftmost P ∧ e.1 = azF fl lib (ptAt P (leftmost P)) (ptAt P e.2) := by
  unfold azimuthIndicesF
  rw [List.mem_insertionSort, List.mem_map]
  constructor
  · rintro ⟨i, hi, rfl⟩
    simpa using hi
  · rintro ⟨h1, h2, h3⟩
    exact ⟨e.2, by simp [h1, h2], by rw [← h3]⟩

/-- The first direction keeps one vertex; the later ones are not thinned out. -/
theorem dedupF_rest (lib : Lib) (P : List Pt) (L : Pt) (az : List (ℚ × Nat)) : ∀ (es : List (ℚ × Nat)) (i last : Nat)
    (lastpt : Pt) (indices : List Nat), (∀ e ∈ es, e.1 ≠ (az.getD last (0, 0)).1) →
    dedupF lib P L az es i last lastpt indices = indices ++ es.map Prod.snd
  | [], _, _, _, _, _ => by simp [dedupF]
  | e :: es, i, last, lastpt, indices, h => by
    rw [dedupF, if_neg (h e (by simp)), dedupF_rest lib P L az es (i + 1) last lastpt _ (fun x hx => h x (by simp [hx]))]
    simp

theorem dedupF_ties (lib : Lib) (P : List Pt) (L : Pt) (az rest : List (ℚ × Nat)) (k0 : ℚ) :
    ∀ (ties : List (ℚ × Nat)) (i last : Nat) (lastpt : Pt) (g : Nat),
    (∀ e ∈ rest, e.1 ≠ k0) → (∀ e ∈ ties, e.1 = k0) → (az.getD last (0, 0)).1 = k0 →
    (∀ j < ties.length, (az.getD (i + j) (0, 0)).1 = k0) →
    ∃ g', (g' = g ∨ ∃ e ∈ ties, g' = e.2) ∧
      dedupF lib P L az (ties ++ rest) i last lastpt [g] = g' :: rest.map Prod.snd
  | [], i, last, lastpt, g, hr, _, hl, _ => by
    refine ⟨g, Or.inl rfl, ?_⟩
    rw [List.nil_append, dedupF_rest lib P L az rest i last lastpt [g] (fun e he => by rw [hl]; exact hr e he)]
    rfl
  | e :: ties, i, last, lastpt, g, hr, ht, hl, hi => by
    have he : e.1 = (az.getD last (0, 0)).1 := by rw [hl]; exact ht e (by simp)
    have hi' : ∀ j < ties.length, (az.getD (i + 1 + j) (0, 0)).1 = k0 := by
      intro j hj
      have := hi (j + 1) (by simp; omega)
      rwa [show i + 1 + j = i + (j + 1) by omega]
    rw [List.cons_append, dedupF, if_pos he]
    by_cases hd : lib.dist L (ptAt P e.2) > lib.dist L lastpt
    · rw [if_pos hd]
      have h0 := hi 0 (by simp)
      rw [Nat.add_zero] at h0
      obtain ⟨g', hg', eq⟩ := dedupF_ties lib P L az rest k0 ties (i + 1) i (ptAt P i) e.2 hr
        (fun x hx => ht x (by simp [hx])) h0 hi'
      refine ⟨g', Or.inr ?_, eq⟩
      rcases hg' with rfl | ⟨x, hx, rfl⟩
      · exact ⟨e, by simp, rfl⟩
      · exact ⟨x, by simp [hx], rfl⟩
    · rw [if_neg hd]
      obtain ⟨g', hg', eq⟩ := dedupF_ties lib P L az rest k0 ties (i + 1) last lastpt g hr
        (fun x hx => ht x (by simp [hx])) hl hi'
      refine ⟨g', ?_, eq⟩
      rcases hg' with rfl | ⟨x, hx, rfl⟩
      · exact Or.inl rfl
      · exact Or.inr ⟨x, by simp [hx], rfl⟩


/-! ### The scan -/

theorem popWhileF_eq {fl : ℚ → ℚ} {P : List Pt} (h : ∀ i j k, isleftF fl (ptAt P i) (ptAt P j) (ptAt P k) = isleft (ptAt P i) (ptAt P j) (ptAt P k))
    (i : Nat) : ∀ st, popWhileF fl P i st = popWhile P i st
  | [] => rfl
  | [_] => rfl
  | b :: a :: st => by rw [popWhileF, popWhile, h, popWhileF_eq h i (a :: st)]

theorem scanF_eq {fl : ℚ → ℚ} {P : List Pt} (h : ∀ i j k, isleftF fl (ptAt P i) (ptAt P j) (ptAt P k) = isleft (ptAt P i) (ptAt P j) (ptAt P k)) :
    ∀ is st, scanF fl P is st = scan P is st
  | [], _ => rfl
  | i :: is, st => by
    rw [scanF, scan, popWhileF_eq h]
    cases popWhile P i st with
    | error e => rfl
    | ok st' => exact scanF_eq h is (i :: st')

theorem popWhileF_sub (P : List Pt) (i : Nat) : ∀ st st' : List Nat, popWhileF fl P i st = .ok st' →
    ∀ j ∈ st', j ∈ st
  | [], _, h => by simp [popWhileF] at h
  | [_], _, h => by simp [popWhileF] at h
  | b :: a :: st, st', h => by
    rw [popWhileF] at h
    by_cases hl : isleftF fl (ptAt P a) (ptAt P b) (ptAt P i) = true
    · rw [if_pos hl] at h; cases h; exact fun j hj => hj
    · rw [if_neg hl] at h
      intro j hj
      have := popWhileF_sub P i (a :: st) st' h j hj
      simp at this ⊢; tauto

theorem dedupF_indices (lib : Lib) (P : List Pt) (L : Pt) (az : List (ℚ × Nat)) (B : Nat → Prop) :
    ∀ (es : List (ℚ × Nat)) (i last : Nat) (lastpt : Pt) (indices : List Nat), (∀ e ∈ es, B e.2) →
    (∀ j ∈ indices, B j) → ∀ j ∈ dedupF lib P L az es i last lastpt indices, B j
  | [], _, _, _, _, _, h => h
  | e :: es, i, last, lastpt, indices, hes, h => by
    rw [dedupF]
    by_cases h1 : e.1 = (az.getD last (0, 0)).1
    · rw [if_pos h1]
      by_cases h2 : lib.dist L (ptAt P e.2) > lib.dist L lastpt
      · rw [if_pos h2]
        apply dedupF_indices lib P L az B es _ _ _ _ (fun x hx => hes x (by simp [hx]))
        intro j hj
        rcases List.mem_append.mp hj with hj | hj
        · exact h j (List.mem_of_mem_dropLast hj)
        · simp at hj; rw [hj]; exact hes e (by simp)
      · rw [if_neg h2]
        exact dedupF_indices lib P L az B es _ _ _ _ (fun x hx => hes x (by simp [hx])) h
    · rw [if_neg h1]
      apply dedupF_indices lib P L az B es _ _ _ _ (fun x hx => hes x (by simp [hx]))
      intro j hj
      rcases List.mem_append.mp hj with hj | hj
      · exact h j hj
      · simp at hj; rw [hj]; exact hes e (by simp)

theorem scanF_indices (P : List Pt) (B : Nat → Prop) : ∀ (is st st' : List Nat), scanF fl P is st = .ok st' →
    (∀ j ∈ is, B j) → (∀ j ∈ st, B j) → ∀ j ∈ st', B j
  | [], st, st', h, _, hs => by rw [scanF] at h; cases h; exact hs
  | i :: is, st, st', h, hi, hs => by
    rw [scanF] at h
    cases hp : popWhileF fl P i st with
    | error e => rw [hp] at h; cases h
    | ok s1 =>
      rw [hp] at h
      refine scanF_indices P B is (i :: s1) st' h (fun j hj => hi j (by simp [hj])) ?_
      intro j hj
      rcases List.mem_cons.mp hj with rfl | hj
      · exact hi j (by simp)
      · exact hs j (popWhileF_sub P i st s1 hp j hj)

theorem popWhileF_suffix (P : List Pt) (i : Nat) : ∀ st st' : List Nat, popWhileF fl P i st = .ok st' →
    st' <:+ st ∧ 2 ≤ st'.length
  | [], _, h => by simp [popWhileF] at h
  | [_], _, h => by simp [popWhileF] at h
  | b :: a :: st, st', h => by
    rw [popWhileF] at h
    by_cases hl : isleftF fl (ptAt P a) (ptAt P b) (ptAt P i) = true
    · rw [if_pos hl] at h; cases h; exact ⟨List.suffix_refl _, by simp⟩
    · rw [if_neg hl] at h
      obtain ⟨h1, h2⟩ := popWhileF_suffix P i (a :: st) st' h
      exact ⟨h1.trans (List.suffix_cons _ _), h2⟩

theorem scanF_last (P : List Pt) : ∀ (is st st' : List Nat), scanF fl P is st = .ok st' → 2 ≤ st.length →
    st'.getLast? = st.getLast? ∧ 2 ≤ st'.length
  | [], st, st', h, hl => by rw [scanF] at h; cases h; exact ⟨rfl, hl⟩
  | i :: is, st, st', h, hl => by
    rw [scanF] at h
    cases hp : popWhileF fl P i st with
    | error e => rw [hp] at h; cases h
    | ok s1 =>
      rw [hp] at h
      obtain ⟨⟨d, hd⟩, h2⟩ := popWhileF_suffix P i st s1 hp
      obtain ⟨h3, h4⟩ := scanF_last P is (i :: s1) st' h (by simp; omega)
      refine ⟨?_, h4⟩
      rw [h3, ← hd]
      cases s1 with
      | nil => simp at h2
      | cons x s1 => simp [List.getLast?_append, List.getLast?_cons]

/-- Core of C180: it is enough that azimuths compare rightly and that turns are found rightly. -/
theorem hullF_core {fl : ℚ → ℚ} {lib : Lib} {ring : Bool} {ps : List Pt} {P : List Pt} (hP : P = readPts ring ps) {L : Pt}
    (hL : IsLeftmost P L) (hnc : ∃ p ∈ P, ∃ q ∈ P, turn L p q ≠ 0)
    (hlow : ∀ p q, OnLowestRay P L p → OnLowestRay P L q → p = q)
    (K1 : ∀ p ∈ P, ∀ q ∈ P, Half L p → Half L q → 0 < turn L p q → azF fl lib L p < azF fl lib L q)
    (K2 : ∀ p ∈ P, Half L p → azF fl lib L p < azF fl lib L L)
    (hl : ∀ i j k, isleftF fl (ptAt P i) (ptAt P j) (ptAt P k) = isleft (ptAt P i) (ptAt P j) (ptAt P k)) :
    ∃ H : List Pt, convexHullF fl lib ring ps = .ok H ∧ Encloses H P := by
  have K3 : ∀ p ∈ P, ∀ q ∈ P, Half L p → Half L q → azF fl lib L p ≤ azF fl lib L q → 0 ≤ turn L p q := by
    intro p hp q hq Hp Hq h
    by_contra hc
    have e : turn L q p = - turn L p q := by simp only [turn]; ring
    have := K1 q hq p hp Hq Hp (by rw [e]; linarith)
    linarith
  have hne : P ≠ [] := by intro e; rw [e] at hL; simp [IsLeftmost] at hL
  obtain ⟨hlt, hbey⟩ := leftmost_spec hne
  have hLe := leftmost_unique hL
  rw [hLe] at hbey
  -- every vertex other than the leftmost is listed
  have hlist : ∀ p ∈ P, p ≠ L → ∃ e ∈ azimuthIndicesF fl lib P, ptAt P e.2 = p ∧ e.1 = azF fl lib L p ∧ Half L p := by
    intro p hp hpL
    obtain ⟨i, hi, rfl⟩ := mem_ptAt hp
    refine ⟨(azF fl lib L (ptAt P i), i), azF_mem.mpr ⟨hi, ?_, by rw [hLe]⟩, rfl, rfl, (half_or_eq (hbey i hi)).resolve_right hpL⟩
    rintro h
    simp only at h
    rw [h] at hpL
    exact hpL hLe
  have hentry : ∀ e ∈ azimuthIndicesF fl lib P, e.2 < P.length ∧ e.1 = azF fl lib L (ptAt P e.2) ∧
      (Half L (ptAt P e.2) ∨ ptAt P e.2 = L) := by
    intro e he
    obtain ⟨a, _, c⟩ := azF_mem.mp he
    rw [hLe] at c
    exact ⟨a, c, half_or_eq (hbey _ a)⟩
  have hsort := azF_sorted fl lib P
  cases haz : azimuthIndicesF fl lib P with
  | nil =>
    exfalso
    obtain ⟨p, hp, q, hq, hpq⟩ := hnc
    have : p = L := by
      by_contra h
      obtain ⟨e, he, _⟩ := hlist p hp h
      rw [haz] at he; simp at he
    apply hpq; rw [this]; exact turn_L_left _ _
  | cons e es =>
    rw [haz] at hsort hlist hentry
    have hs' := List.pairwise_cons.mp hsort
    have hkmin : ∀ x ∈ e :: es, e.1 ≤ x.1 := by
      intro x hx
      rcases List.mem_cons.mp hx with rfl | hx
      · exact le_rfl
      · exact leF_le (hs'.1 x hx)
    have heH : Half L (ptAt P e.2) := by
      refine (hentry e (by simp)).2.2.resolve_right fun heL => ?_
      have hk : e.1 = azF fl lib L L := by rw [(hentry e (by simp)).2.1, heL]
      have hall : ∀ p ∈ P, p = L := by
        intro p hp
        by_contra h
        obtain ⟨x, hx, _, hk', hh⟩ := hlist p hp h
        have h1 := hkmin x hx
        have h2 := K2 p hp hh
        rw [hk, hk'] at h1
        linarith
      obtain ⟨p, hp, q, hq, hpq⟩ := hnc
      apply hpq; rw [hall p hp]; exact turn_L_left _ _
    have hray : ∀ x ∈ e :: es, x.1 = e.1 → OnLowestRay P L (ptAt P x.2) := by
      intro x hx hxe
      have hxH : Half L (ptAt P x.2) := by
        refine (hentry x hx).2.2.resolve_right fun h => ?_
        have h1 := (hentry x hx).2.1
        have h2 := (hentry e (by simp)).2.1
        rw [h, hxe, h2] at h1
        have := K2 _ (ptAt_mem (hentry e (by simp)).1) heH
        rw [h1] at this
        exact lt_irrefl _ this
      refine ⟨ptAt_mem (hentry x hx).1, half_ne hxH, ?_⟩
      intro r hr
      by_cases hrL : r = L
      · rw [hrL]; exact (turn_L_right _ _).ge
      · obtain ⟨f, hf, _, hfk, hfH⟩ := hlist r hr hrL
        apply K3 _ (ptAt_mem (hentry x hx).1) _ hr hxH hfH
        rw [← hfk, ← (hentry x hx).2.1, hxe]
        exact hkmin f hf
    -- the three groups
    obtain ⟨ties, rest, hes, hties, hrest⟩ : ∃ ties rest : List (ℚ × Nat), es = ties ++ rest ∧
        (∀ x ∈ ties, x.1 = e.1) ∧ ∀ x ∈ rest, x.1 ≠ e.1 := by
      refine ⟨_, _, split_sorted (R := fun x y => leF x y ∧ leF e x) (fun x => decide (x.1 = e.1)) ?_ es
        (hs'.2.imp_of_mem fun hx _ h => ⟨h, hs'.1 _ hx⟩), ?_, ?_⟩
      · intro x y hxy hy
        simp only [decide_eq_true_eq] at hy ⊢
        have h1 := leF_le hxy.1
        have h2 := leF_le hxy.2
        rw [hy] at h1
        exact le_antisymm h1 h2
      · intro x hx; simpa using (List.mem_filter.mp hx).2
      · intro x hx; simpa using (List.mem_filter.mp hx).2
    have hrsort : rest.Pairwise leF := by
      have := hs'.2
      rw [hes] at this
      exact (List.pairwise_append.mp this).2.1
    have hrmem : ∀ x ∈ rest, x ∈ e :: es := fun x hx => by rw [hes]; simp [hx]
    obtain ⟨Hs, D, hrs, hHs, hD⟩ : ∃ Hs D : List (ℚ × Nat), rest = Hs ++ D ∧
        (∀ x ∈ Hs, x.1 < azF fl lib L L) ∧ ∀ x ∈ D, ¬ x.1 < azF fl lib L L := by
      refine ⟨_, _, split_sorted (R := leF) (fun x => decide (x.1 < azF fl lib L L)) ?_ rest hrsort, ?_, ?_⟩
      · intro x y hxy hy
        simp only [decide_eq_true_eq] at hy ⊢
        exact lt_of_le_of_lt (leF_le hxy) hy
      · intro x hx; simpa using (List.mem_filter.mp hx).2
      · intro x hx; simpa using (List.mem_filter.mp hx).2
    have hHmem : ∀ x ∈ Hs, x ∈ rest := fun x hx => by rw [hrs]; simp [hx]
    have hDmem : ∀ x ∈ D, x ∈ rest := fun x hx => by rw [hrs]; simp [hx]
    have hHhalf : ∀ x ∈ Hs, Half L (ptAt P x.2) := by
      intro x hx
      have hx' := hrmem x (hHmem x hx)
      refine (hentry x hx').2.2.resolve_right fun h => ?_
      have h1 := (hentry x hx').2.1
      rw [h] at h1
      have := hHs x hx
      rw [h1] at this
      exact lt_irrefl _ this
    have hDL : ∀ x ∈ D, ptAt P x.2 = L := by
      intro x hx
      have hx' := hrmem x (hDmem x hx)
      refine (hentry x hx').2.2.resolve_left fun h => hD x hx ?_
      rw [(hentry x hx').2.1]
      exact K2 _ (ptAt_mem (hentry x hx').1) h
    -- the first group gives `g`
    obtain ⟨g, hgor, hded⟩ := dedupF_ties lib P (ptAt P (leftmost P)) (e :: es) rest e.1 ties 1 0 (ptAt P (leftmost P)) e.2
      hrest hties (by simp) (by
        intro j hj
        have : (e :: es).getD (1 + j) (0, 0) = ties[j] := by
          rw [Nat.add_comm, List.getD_cons_succ, hes, List.getD_eq_getElem?_getD, List.getElem?_append_left hj,
            List.getElem?_eq_getElem hj, Option.getD_some]
        rw [this]
        exact hties _ (List.getElem_mem hj))
    obtain ⟨ge, hge, hgee, hgeg⟩ : ∃ ge ∈ e :: es, ge.1 = e.1 ∧ ge.2 = g := by
      rcases hgor with rfl | ⟨x, hx, rfl⟩
      · exact ⟨e, by simp, rfl, rfl⟩
      · exact ⟨x, by rw [hes]; simp [hx], hties x hx, rfl⟩
    have hgray : OnLowestRay P L (ptAt P g) := hgeg ▸ hray ge hge hgee
    have hgH : Half L (ptAt P g) := by
      rw [← hgeg] at hgray ⊢
      exact (hentry ge hge).2.2.resolve_right hgray.2.1
    have hgk : azF fl lib L (ptAt P g) = e.1 := by
      rw [← hgeg, ← (hentry ge hge).2.1, hgee]
    rw [← hes] at hded
    -- there is a second direction
    have hall : ∀ p ∈ P, p = L ∨ p = ptAt P g ∨ ∃ x ∈ Hs, ptAt P x.2 = p := by
      intro p hp
      by_cases h : p = L
      · exact Or.inl h
      · obtain ⟨x, hx, hxp, _, hh⟩ := hlist p hp h
        by_cases hxe : x.1 = e.1
        · exact Or.inr (Or.inl (hlow _ _ (by rw [← hxp]; exact hray x hx hxe) hgray))
        · rcases List.mem_cons.mp hx with rfl | hx
          · exact absurd rfl hxe
          · rw [hes] at hx
            rcases List.mem_append.mp hx with hx | hx
            · exact absurd (hties x hx) hxe
            · rw [hrs] at hx
              rcases List.mem_append.mp hx with hx | hx
              · exact Or.inr (Or.inr ⟨x, hx, hxp⟩)
              · exact absurd (by rw [← hxp]; exact hDL x hx) h
    obtain ⟨h1, Hs', hHs1⟩ : ∃ h1 Hs', Hs = h1 :: Hs' := by
      cases hh : Hs with
      | cons a l => exact ⟨a, l, rfl⟩
      | nil =>
        exfalso
        have h2 : ∀ p ∈ P, p = L ∨ p = ptAt P g := by
          intro p hp
          rcases hall p hp with h | h | ⟨x, hx, _⟩
          · exact Or.inl h
          · exact Or.inr h
          · rw [hh] at hx; simp at hx
        obtain ⟨p, hp, q, hq, hpq⟩ := hnc
        apply hpq
        rcases h2 p hp with hp | hp
        · rw [hp]; exact turn_L_left _ _
        · rcases h2 q hq with hq | hq
          · rw [hq]; exact turn_L_right _ _
          · rw [hp, hq]; simp only [turn]; ring
    -- run the scan on points
    have hHsort : Hs.Pairwise leF := by
      rw [hrs] at hrsort; exact (List.pairwise_append.mp hrsort).1
    have hord : ((h1 :: Hs').map fun x => ptAt P x.2).Pairwise fun x y => 0 ≤ turn L x y := by
      rw [← hHs1, List.pairwise_map]
      refine hHsort.imp_of_mem fun {x y} hx hy h => ?_
      apply K3 _ (ptAt_mem (hentry x (hrmem x (hHmem x hx))).1) _ (ptAt_mem (hentry y (hrmem y (hHmem y hy))).1) (hHhalf x hx) (hHhalf y hy)
      rw [← (hentry x (hrmem x (hHmem x hx))).2.1, ← (hentry y (hrmem y (hHmem y hy))).2.1]
      exact leF_le h
    have hstr : ∀ p ∈ (h1 :: Hs').map (fun x => ptAt P x.2), 0 < turn L (ptAt P g) p := by
      intro p hp
      rw [← hHs1] at hp
      obtain ⟨x, hx, rfl⟩ := List.mem_map.mp hp
      have hx' := hrmem x (hHmem x hx)
      have hxP := ptAt_mem (hentry x hx').1
      refine lt_of_le_of_ne (hgray.2.2 _ hxP) fun h => ?_
      have hxray : OnLowestRay P L (ptAt P x.2) := by
        refine ⟨hxP, half_ne (hHhalf x hx), fun r hr => ?_⟩
        obtain ⟨m, hm, ex, ey⟩ := same_dir hgH (hHhalf x hx) h.symm
        have e' : turn L (ptAt P x.2) r = m * turn L (ptAt P g) r := by
          unfold turn
          rw [ex, ey]; ring
        rw [e']
        exact mul_nonneg hm.le (hgray.2.2 r hr)
      have := hlow _ _ hxray hgray
      exact hrest x (hHmem x hx) (by rw [(hentry x hx').2.1, this, hgk])
    have hhalfs : ∀ p ∈ (h1 :: Hs').map (fun x => ptAt P x.2), Half L p := by
      intro p hp
      rw [← hHs1] at hp
      obtain ⟨x, hx, rfl⟩ := List.mem_map.mp hp
      exact hHhalf x hx
    rw [List.map_cons] at hord hstr hhalfs
    obtain ⟨st, hst, s1, s2, s3, s4, s5, s6⟩ := scan_all D.length hgH hhalfs hord hstr
    have hPmem : ∀ p, p ∈ P ↔ p ∈ ptAt P h1.2 :: Hs'.map (fun x => ptAt P x.2) ++ [ptAt P g, L] := by
      intro p
      have hiff : p ∈ ptAt P h1.2 :: Hs'.map (fun x => ptAt P x.2) ++ [ptAt P g, L] ↔
          (∃ x ∈ Hs, ptAt P x.2 = p) ∨ p = ptAt P g ∨ p = L := by
        rw [← List.map_cons (f := fun x : ℚ × Nat => ptAt P x.2), ← hHs1]
        simp only [List.mem_append, List.mem_map, List.mem_cons, List.not_mem_nil, or_false]
      rw [hiff]
      constructor
      · intro hp
        rcases hall p hp with h | h | h
        · exact Or.inr (Or.inr h)
        · exact Or.inr (Or.inl h)
        · exact Or.inl h
      · rintro (⟨x, hx, rfl⟩ | rfl | rfl)
        · exact ptAt_mem (hentry x (hrmem x (hHmem x hx))).1
        · exact hgray.1
        · exact hL.1
    have hscan := scan_pts P ((Hs' ++ D).map Prod.snd) [h1.2, g, leftmost P]
    have hDmap : (D.map Prod.snd).map (ptAt P) = List.replicate D.length L := by
      rw [List.map_map, List.eq_replicate_iff]
      refine ⟨by simp, ?_⟩
      intro p hp
      obtain ⟨x, hx, rfl⟩ := List.mem_map.mp hp
      exact hDL x hx
    rw [List.map_append, List.map_append, hDmap, List.map_map] at hscan
    simp only [List.map_cons, List.map_nil, hLe] at hscan
    have hst' : scanPts (List.map (ptAt P ∘ Prod.snd) Hs' ++ List.replicate D.length L) [ptAt P h1.2, ptAt P g, L] = .ok st := hst
    rw [hst'] at hscan
    cases hsc : scan P (Hs'.map Prod.snd ++ D.map Prod.snd) [h1.2, g, leftmost P] with
    | error x => rw [hsc] at hscan; cases hscan
    | ok idx =>
      rw [hsc] at hscan
      have hidx : idx.map (ptAt P) = st := by
        simp only [Except.map, Except.ok.injEq] at hscan; exact hscan
      refine ⟨st.reverse, ?_, encloses_of_stack s1 (fun p hp => s2 p ((hPmem p).mp hp))
        (fun top ht p hp => s3 top ht p ((hPmem p).mp hp)) (fun p hp => s4 p ((hPmem p).mp hp))
        (fun p hp => (hPmem p).mpr (s5 p hp)) s6⟩
      have hch : convexhullF fl lib ring ps = .ok idx.reverse := by
        unfold convexhullF
        simp only [← hP, haz]
        rw [if_neg hne, hded, hrs, hHs1]
        simp only [List.cons_append, List.map_cons, List.map_append]
        cases hk : Hs'.map Prod.snd ++ D.map Prod.snd with
        | nil =>
          rw [hk] at hsc
          simp only [scan, Except.ok.injEq] at hsc
          rw [← hsc]; rfl
        | cons a l =>
          rw [hk] at hsc
          simp only [scanF_eq hl, hsc]
      unfold convexHullF
      rw [hch, ← hP]
      simp only [Except.map, ← hidx, List.map_reverse]

/-! ### C180 -/

theorem units_ptAt {k : ℤ} {P : List Pt} (h : ∀ p ∈ P, UnitsPt k (2 ^ 22) p) (i : Nat) : UnitsPt k (2 ^ 22) (ptAt P i) := by
  by_cases hi : i < P.length
  · exact h _ (ptAt_mem hi)
  · unfold ptAt
    rw [List.getD_eq_getElem?_getD, List.getElem?_eq_none (by omega), Option.getD_none]
    exact ⟨⟨0, by norm_num, by simp⟩, ⟨0, by norm_num, by simp⟩⟩

/-- **C180 (part).**  With coordinates in whole multiples of a power of two (say 1/1024), at most `2^22` of them, and an
accurate `atan2`, rounding does no harm: under the conditions of C46 the polygon encloses every vertex.  Missing: coordinates with
more digits, and what C46 leaves out. -/
theorem C180_encloses_partial (R : Rounding) (lib : Lib) (ha : lib.Accurate) {k : ℤ} {ring : Bool} {ps : List Pt} {L : Pt}
    (hu : ∀ p ∈ ps, UnitsPt k (2 ^ 22) p) (hL : IsLeftmost (readPts ring ps) L)
    (hnc : ∃ p ∈ readPts ring ps, ∃ q ∈ readPts ring ps, turn L p q ≠ 0)
    (hlow : ∀ p q, OnLowestRay (readPts ring ps) L p → OnLowestRay (readPts ring ps) L q → p = q) :
    ∃ H : List Pt, convexHullF R.fl lib ring ps = .ok H ∧ Encloses H (readPts ring ps) := by
  have hu' : ∀ p ∈ readPts ring ps, UnitsPt k (2 ^ 22) p := by
    intro p hp
    unfold readPts at hp
    cases ring with
    | false => exact hu p hp
    | true =>
      simp only [if_true, List.mem_append, Option.mem_toList] at hp
      rcases hp with hp | hp
      · exact hu p hp
      · exact hu p (List.mem_of_mem_head? hp)
  have hc : Close R.fl := fun x => le_trans (R.err x) (by
    have : (0 : ℚ) ≤ 1 / 2 ^ 60 := by norm_num
    linarith)
  have hR : ∀ x, InUnits k (2 ^ 23) x → R.fl x = x := fun x h => h.exact R (by norm_num)
  exact hullF_core rfl hL hnc hlow
    (fun p hp q hq Hp Hq h => azF_lt hc ha hR (hu' L hL.1) (hu' p hp) (hu' q hq) Hp Hq h)
    (fun p hp Hp => azF_top hc ha hR (hu' L hL.1) (hu' p hp) Hp)
    (fun i j k => isleftF_eq R (units_ptAt hu' i) (units_ptAt hu' j) (units_ptAt hu' k))

/-- **C180.**  Whatever the rounding and the C library do: whatever polygon is returned has input vertices only, at
least two of them, and begins with the leftmost one. -/
theorem C180_vertices {fl : ℚ → ℚ} {lib : Lib} {ring : Bool} {ps H : List Pt} (h : convexHullF fl lib ring ps = .ok H) :
    (∀ p ∈ H, p ∈ ps) ∧ 2 ≤ H.length ∧ ∃ L, H.head? = some L ∧ IsLeftmost ps L := by
  have hread : ∀ p ∈ readPts ring ps, p ∈ ps := by
    intro p hp
    unfold readPts at hp
    cases ring with
    | false => exact hp
    | true =>
      simp only [if_true, List.mem_append, Option.mem_toList] at hp
      rcases hp with hp | hp
      · exact hp
      · exact List.mem_of_mem_head? hp
  have hread' : ∀ p ∈ ps, p ∈ readPts ring ps := by
    intro p hp
    unfold readPts
    cases ring with
    | false => exact hp
    | true => simp [hp]
  have key : ∀ idx, convexhullF fl lib ring ps = .ok idx → readPts ring ps ≠ [] ∧
      (∀ j ∈ idx, j < (readPts ring ps).length) ∧ 2 ≤ idx.length ∧
      idx.head? = some (leftmost (readPts ring ps)) := by
    intro idx hc
    unfold convexhullF at hc
    by_cases hne : readPts ring ps = []
    · rw [if_pos hne] at hc; cases hc
    rw [if_neg hne] at hc
    refine ⟨hne, ?_⟩
    obtain ⟨hlt, _⟩ := leftmost_spec hne
    generalize hP : readPts ring ps = P at *
    have hent : ∀ e ∈ azimuthIndicesF fl lib P, e.2 < P.length := fun e he => (azF_mem.mp he).1
    cases haz : azimuthIndicesF fl lib P with
    | nil => rw [haz] at hc; cases hc
    | cons e es =>
      rw [haz] at hc hent
      simp only at hc
      have hd := dedupF_indices lib P (ptAt P (leftmost P)) (e :: es) (fun j => j < P.length) es 1 0 (ptAt P (leftmost P))
        [e.2] (fun x hx => hent x (by simp [hx])) (by intro j hj; simp at hj; rw [hj]; exact hent e (by simp))
      generalize dedupF lib P (ptAt P (leftmost P)) (e :: es) es 1 0 (ptAt P (leftmost P)) [e.2] = l at hc hd
      match l, hc, hd with
      | [], hc, _ => cases hc
      | [i], hc, hd =>
        simp only [Except.ok.injEq] at hc
        subst hc
        refine ⟨?_, by simp, rfl⟩
        intro j hj
        simp only [List.mem_cons, List.not_mem_nil, or_false] at hj
        rcases hj with rfl | rfl
        · exact hlt
        · exact hd _ (by simp)
      | [i, k], hc, hd =>
        simp only [Except.ok.injEq] at hc
        subst hc
        refine ⟨?_, by simp, rfl⟩
        intro j hj
        simp only [List.mem_cons, List.not_mem_nil, or_false] at hj
        rcases hj with rfl | rfl | rfl
        · exact hlt
        · exact hd _ (by simp)
        · exact hd _ (by simp)
      | i :: k :: x :: is, hc, hd =>
        simp only at hc
        cases hs : scanF fl P (x :: is) [k, i, leftmost P] with
        | error e => rw [hs] at hc; cases hc
        | ok st =>
          rw [hs] at hc
          simp only [Except.ok.injEq] at hc
          subst hc
          have h1 := scanF_indices P (fun j => j < P.length) _ _ _ hs (fun j hj => hd j (by simp at hj ⊢; tauto)) (by
            intro j hj
            simp only [List.mem_cons, List.not_mem_nil, or_false] at hj
            rcases hj with rfl | rfl | rfl
            · exact hd _ (by simp)
            · exact hd _ (by simp)
            · exact hlt)
          obtain ⟨h2, h3⟩ := scanF_last P _ _ _ hs (by simp)
          refine ⟨fun j hj => h1 j (by simpa using hj), by simpa using h3, ?_⟩
          rw [List.head?_reverse, h2]; rfl
  unfold convexHullF at h
  cases hc : convexhullF fl lib ring ps with
  | error e => rw [hc] at h; cases h
  | ok idx =>
    rw [hc] at h
    simp only [Except.map, Except.ok.injEq] at h
    obtain ⟨k0, k1, k2, k3⟩ := key idx hc
    subst h
    refine ⟨?_, by simpa using k2, ptAt (readPts ring ps) (leftmost (readPts ring ps)), ?_, ?_, ?_⟩
    · intro p hp
      obtain ⟨j, hj, rfl⟩ := List.mem_map.mp hp
      exact hread _ (ptAt_mem (k1 j hj))
    · rw [List.head?_map, k3]; rfl
    · exact hread _ (ptAt_mem (leftmost_spec k0).1)
    · intro p hp
      obtain ⟨i, hi, rfl⟩ := mem_ptAt (hread' p hp)
      exact (leftmost_spec k0).2 i hi

/-! ### The conditions can be met -/

theorem exists_near (r : ℝ) : ∃ q : ℚ, |(q : ℝ) - r| ≤ 1 / 2 ^ 51 := by
  obtain ⟨q, h1, h2⟩ := exists_rat_btwn (show r < r + 1 / 2 ^ 51 by norm_num)
  exact ⟨q, by rw [abs_le]; constructor <;> linarith [show (0 : ℝ) < 1 / 2 ^ 51 by norm_num]⟩

/-- An accurate library. -/
noncomputable def someLib : Lib where
  atan2 v u := if v = 0 ∧ u = 0 then 0 else (exists_near (Complex.arg ⟨(u : ℝ), (v : ℝ)⟩)).choose
  halfPi := (exists_near (Real.pi / 2)).choose
  dist a b := sqDist a b

theorem someLib_accurate : someLib.Accurate where
  atan2_err v u := by
    unfold someLib
    dsimp only
    by_cases h : v = 0 ∧ u = 0
    · rw [if_pos h, h.1, h.2]
      have : (⟨((0 : ℚ) : ℝ), ((0 : ℚ) : ℝ)⟩ : ℂ) = 0 := by apply Complex.ext <;> simp
      rw [this, Complex.arg_zero]
      norm_num
    · rw [if_neg h]
      exact (exists_near _).choose_spec
  pi_err := (exists_near (Real.pi / 2)).choose_spec
  zero := by unfold someLib; simp

/-- A square with an inner point, in metres with steps of 1/1024. -/
example : ∃ H : List Pt, convexHullF double.fl someLib true [⟨0, 0⟩, ⟨4, 1⟩, ⟨4, 4⟩, ⟨5 / 2, 2⟩, ⟨0, 4⟩] = .ok H ∧
    Encloses H (readPts true [⟨0, 0⟩, ⟨4, 1⟩, ⟨4, 4⟩, ⟨5 / 2, 2⟩, ⟨0, 4⟩]) := by
  refine C180_encloses_partial double someLib someLib_accurate (k := -10) (L := ⟨0, 4⟩) ?_ ?_ ?_ ?_
  · intro p hp
    have hx : ∀ (n : ℤ) (x : ℚ), |n| ≤ 2 ^ 22 → x = n * 2 ^ (-10 : ℤ) → InUnits (-10) (2 ^ 22) x := fun n x h1 h2 => ⟨n, h1, h2⟩
    simp only [List.mem_cons, List.not_mem_nil, or_false] at hp
    rcases hp with rfl | rfl | rfl | rfl | rfl
    · exact ⟨hx 0 _ (by norm_num) (by norm_num), hx 0 _ (by norm_num) (by norm_num)⟩
    · exact ⟨hx 4096 _ (by norm_num) (by norm_num), hx 1024 _ (by norm_num) (by norm_num)⟩
    · exact ⟨hx 4096 _ (by norm_num) (by norm_num), hx 4096 _ (by norm_num) (by norm_num)⟩
    · exact ⟨hx 2560 _ (by norm_num) (by norm_num), hx 2048 _ (by norm_num) (by norm_num)⟩
    · exact ⟨hx 0 _ (by norm_num) (by norm_num), hx 4096 _ (by norm_num) (by norm_num)⟩
  · unfold IsLeftmost; decide +kernel
  · exact ⟨⟨0, 0⟩, by decide +kernel, ⟨4, 1⟩, by decide +kernel, by decide +kernel⟩
  · have key : ∀ p ∈ readPts true [⟨0, 0⟩, ⟨4, 1⟩, ⟨4, 4⟩, ⟨5 / 2, 2⟩, ⟨0, 4⟩],
        OnLowestRay (readPts true [⟨0, 0⟩, ⟨4, 1⟩, ⟨4, 4⟩, ⟨5 / 2, 2⟩, ⟨0, 4⟩]) ⟨0, 4⟩ p → p = (⟨0, 0⟩ : Pt) := by
      unfold OnLowestRay; decide +kernel
    intro p q hp hq
    rw [key p hp.1 hp, key q hq.1 hq]

/-! ### The limit of the claim -/

theorem way_le_abs (L p : Pt) : way L p ≤ ((|p.x - L.x| + |p.y - L.y| : ℚ) : ℝ) := by
  refine le_trans (Complex.norm_le_abs_re_add_abs_im _) ?_
  dsimp only
  push_cast
  linarith

/-- Azimuths compare rightly when the turn is not too small for the distances. -/
theorem azF_lt_of {fl : ℚ → ℚ} {lib : Lib} (hc : Close fl) (ha : lib.Accurate) {L p q : Pt} (Hp : Half L p) (Hq : Half L q)
    (e1 : fl (p.x - L.x) = p.x - L.x) (e2 : fl (p.y - L.y) = p.y - L.y)
    (e3 : fl (q.x - L.x) = q.x - L.x) (e4 : fl (q.y - L.y) = q.y - L.y) (h : 0 < turn L p q)
    (hs : (|p.x - L.x| + |p.y - L.y|) * (|q.x - L.x| + |q.y - L.y|) ≤ 2 ^ 48 * turn L p q) : azF fl lib L p < azF fl lib L q := by
  have e := way_turn L p q
  have n1 : 0 ≤ way L p := norm_nonneg _
  have n2 : 0 ≤ way L q := norm_nonneg _
  have b1 := arg_bounds Hp
  have b2 := arg_bounds Hq
  have hpos : 0 < way L p * way L q * Real.sin (azimuthReal L q - azimuthReal L p) := by
    rw [e]; exact_mod_cast h
  have hsin : 0 < Real.sin (azimuthReal L q - azimuthReal L p) := pos_of_mul_pos_right hpos (mul_nonneg n1 n2)
  have hww : 0 < way L p * way L q := pos_of_mul_pos_left hpos hsin.le
  have hd : 0 < azimuthReal L q - azimuthReal L p := by
    by_contra hc
    have := Real.sin_nonpos_of_nonpos_of_neg_pi_le (not_lt.1 hc) (by linarith)
    linarith
  have hle := Real.sin_le hd.le
  have hw : way L p * way L q ≤ ((|p.x - L.x| + |p.y - L.y| : ℚ) : ℝ) * ((|q.x - L.x| + |q.y - L.y| : ℚ) : ℝ) :=
    mul_le_mul (way_le_abs L p) (way_le_abs L q) n2 (le_trans n1 (way_le_abs L p))
  have hs' : ((|p.x - L.x| + |p.y - L.y| : ℚ) : ℝ) * ((|q.x - L.x| + |q.y - L.y| : ℚ) : ℝ) ≤ 2 ^ 48 * ((turn L p q : ℚ) : ℝ) := by
    have := (Rat.cast_le (K := ℝ)).2 hs
    push_cast at this ⊢
    exact this
  have h2 : way L p * way L q * 1 ≤ way L p * way L q * (2 ^ 48 * Real.sin (azimuthReal L q - azimuthReal L p)) := by
    have : way L p * way L q * (2 ^ 48 * Real.sin (azimuthReal L q - azimuthReal L p)) = 2 ^ 48 * ((turn L p q : ℚ) : ℝ) := by
      rw [← e]; ring
    rw [this, mul_one]
    exact hw.trans hs'
  have h3 := le_of_mul_le_mul_left h2 hww
  have s : 1 / 2 ^ 48 ≤ Real.sin (azimuthReal L q - azimuthReal L p) := by
    rw [div_le_iff₀ (by positivity)]; linarith
  have a := abs_le.1 (azF_err hc ha e1 e2)
  have b := abs_le.1 (azF_err hc ha e3 e4)
  have : ((azF fl lib L p : ℚ) : ℝ) < ((azF fl lib L q : ℚ) : ℝ) := by norm_num [-Rat.cast_lt] at s a b ⊢; linarith
  exact_mod_cast this

/-- Four vertices with coordinates below `2^29`. -/
def bent : List Pt := [⟨-268435456, 268435456⟩, ⟨0, 0⟩, ⟨134217729, 134217728⟩, ⟨134217730, 134217729⟩]

/-- **C180 is violated.**  With more digits a vertex can be lost: in double precision, with any accurate `atan2`, the hull of the
vertices (-2^28, 2^28), (0, 0), (2^27 + 1, 2^27), (2^27 + 2, 2^27 + 1) leaves the third one outside. -/
theorem C180_violated_lost_vertex (lib : Lib) (ha : lib.Accurate) :
    convexHullF double.fl lib false bent = .ok [⟨-268435456, 268435456⟩, ⟨0, 0⟩, ⟨134217730, 134217729⟩] ∧
    ¬ Conv (fun q => q ∈ ([⟨-268435456, 268435456⟩, ⟨0, 0⟩, ⟨134217730, 134217729⟩] : List Pt)) ⟨134217729, 134217728⟩ := by
  constructor
  · have hc : Close double.fl := fun x => le_trans (double.err x) (by
      have : (0 : ℚ) ≤ 1 / 2 ^ 60 := by norm_num
      linarith)
    have h0 : leftmost bent = 0 := by decide +kernel
    have p0 : ptAt bent 0 = ⟨-268435456, 268435456⟩ := rfl
    have p1 : ptAt bent 1 = ⟨0, 0⟩ := rfl
    have p2 : ptAt bent 2 = ⟨134217729, 134217728⟩ := rfl
    have p3 : ptAt bent 3 = ⟨134217730, 134217729⟩ := rfl
    have k1 : azF double.fl lib (ptAt bent 0) (ptAt bent 1) < azF double.fl lib (ptAt bent 0) (ptAt bent 2) :=
      azF_lt_of hc ha (by unfold Half; decide +kernel) (by unfold Half; decide +kernel) (by decide +kernel) (by decide +kernel) (by decide +kernel)
        (by decide +kernel) (by decide +kernel) (by decide +kernel)
    have k2 : azF double.fl lib (ptAt bent 0) (ptAt bent 2) < azF double.fl lib (ptAt bent 0) (ptAt bent 3) :=
      azF_lt_of hc ha (by unfold Half; decide +kernel) (by unfold Half; decide +kernel) (by decide +kernel) (by decide +kernel) (by decide +kernel)
        (by decide +kernel) (by decide +kernel) (by decide +kernel)
    have haz : azimuthIndicesF double.fl lib bent = [(azF double.fl lib (ptAt bent 0) (ptAt bent 1), 1),
        (azF double.fl lib (ptAt bent 0) (ptAt bent 2), 2), (azF double.fl lib (ptAt bent 0) (ptAt bent 3), 3)] := by
      unfold azimuthIndicesF
      rw [h0, show ((List.range bent.length).filter fun i => i ≠ 0) = [1, 2, 3] by decide +kernel]
      simp only [List.map_cons, List.map_nil]
      apply List.Pairwise.insertionSort_eq
      have k3 := k1.trans k2
      simp [leF, k1, k2, k3]
    have hded : dedupF lib bent (ptAt bent 0) (azimuthIndicesF double.fl lib bent)
        [(azF double.fl lib (ptAt bent 0) (ptAt bent 2), 2), (azF double.fl lib (ptAt bent 0) (ptAt bent 3), 3)] 1 0 (ptAt bent 0) [1] = [1, 2, 3] := by
      rw [dedupF_rest]
      · rfl
      · intro e he
        rw [haz]
        simp only [List.mem_cons, List.not_mem_nil, or_false] at he
        rcases he with rfl | rfl
        · exact k1.ne'
        · exact (k1.trans k2).ne'
    have hsc : scanF double.fl bent [3] [2, 1, 0] = .ok [3, 1, 0] := by decide +kernel
    rw [haz] at hded
    have : convexhullF double.fl lib false bent = .ok [0, 1, 3] := by
      unfold convexhullF
      simp only [readPts, Bool.false_eq_true, if_false]
      rw [if_neg (by decide +kernel), haz, h0]
      simp only [hded, hsc]
      rfl
    unfold convexHullF
    rw [this]
    rfl
  · intro h
    have := turn_conv (a := ⟨0, 0⟩) (b := ⟨134217730, 134217729⟩) (fun p hp => by
      simp only [List.mem_cons, List.not_mem_nil, or_false] at hp
      rcases hp with rfl | rfl | rfl <;> decide +kernel) h
    exact absurd this (by decide +kernel)

end Karta.Float.HullF
