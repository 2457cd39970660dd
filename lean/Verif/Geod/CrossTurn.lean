import Verif.Geod.CrossSweepProps

/-!
# C138, continued: lines that turn back
-/

namespace Karta.Geod.Cross
open Karta Karta.Geod Karta.Geod.Sphere
open Karta.Vec (Pt segsOf)
open Karta.Vec.Sweep

/-- A plane through the centre of the globe separates two arcs. -/
theorem separated {s r : Vec.Seg} (α β γ : ℝ) (h1 : 0 ≤ α * (vec s.a).x + β * (vec s.a).y + γ * (vec s.a).z)
    (h2 : 0 ≤ α * (vec s.b).x + β * (vec s.b).y + γ * (vec s.b).z) (h3 : α * (vec r.a).x + β * (vec r.a).y + γ * (vec r.a).z < 0)
    (h4 : α * (vec r.b).x + β * (vec r.b).y + γ * (vec r.b).z < 0) : ¬ ArcsMeet s r := by
  rintro ⟨w, h0, ⟨c, d, hc, hd, x1, y1, z1⟩, ⟨c', d', hc', hd', x2, y2, z2⟩⟩
  have e1 : α * w.x + β * w.y + γ * w.z = c * (α * (vec s.a).x + β * (vec s.a).y + γ * (vec s.a).z) +
      d * (α * (vec s.b).x + β * (vec s.b).y + γ * (vec s.b).z) := by rw [x1, y1, z1]; ring
  have e2 : α * w.x + β * w.y + γ * w.z = c' * (α * (vec r.a).x + β * (vec r.a).y + γ * (vec r.a).z) +
      d' * (α * (vec r.b).x + β * (vec r.b).y + γ * (vec r.b).z) := by rw [x2, y2, z2]; ring
  have g1 := mul_nonneg hc h1
  have g2 := mul_nonneg hd h2
  have g3 := mul_nonneg hc' (neg_nonneg.2 h3.le)
  have g4 := mul_nonneg hd' (neg_nonneg.2 h4.le)
  have k1 : c' * (α * (vec r.a).x + β * (vec r.a).y + γ * (vec r.a).z) = 0 := by linarith
  have k2 : d' * (α * (vec r.b).x + β * (vec r.b).y + γ * (vec r.b).z) = 0 := by linarith
  have c0 := (mul_eq_zero.1 k1).resolve_right h3.ne
  have d0 := (mul_eq_zero.1 k2).resolve_right h4.ne
  apply h0
  rw [x2, y2, z2, c0, d0]
  simp

theorem deg0 : Real.pi * ((0 : ℚ) : ℝ) / 180 = 0 := by push_cast; ring
theorem deg30 : Real.pi * ((30 : ℚ) : ℝ) / 180 = Real.pi / 6 := by push_cast; ring
theorem deg45 : Real.pi * ((45 : ℚ) : ℝ) / 180 = Real.pi / 4 := by push_cast; ring
theorem deg60 : Real.pi * ((60 : ℚ) : ℝ) / 180 = Real.pi / 3 := by push_cast; ring
theorem deg90 : Real.pi * ((90 : ℚ) : ℝ) / 180 = Real.pi / 2 := by push_cast; ring
theorem degm30 : Real.pi * ((-30 : ℚ) : ℝ) / 180 = -(Real.pi / 6) := by push_cast; ring

theorem vec_0_0 : vec ⟨0, 0⟩ = ⟨1, 0, 0⟩ := by rw [vec_eq]; simp only [deg0, Real.cos_zero, Real.sin_zero]; norm_num
theorem vec_60_0 : vec ⟨60, 0⟩ = ⟨1 / 2, Real.sqrt 3 / 2, 0⟩ := by
  rw [vec_eq]; simp only [deg0, deg60, Real.cos_zero, Real.sin_zero, Real.cos_pi_div_three, Real.sin_pi_div_three]; norm_num
theorem vec_0_60 : vec ⟨0, 60⟩ = ⟨1 / 2, 0, Real.sqrt 3 / 2⟩ := by
  rw [vec_eq]; simp only [deg0, deg60, Real.cos_zero, Real.sin_zero, Real.cos_pi_div_three, Real.sin_pi_div_three]; norm_num
theorem vec_30_60 : vec ⟨30, 60⟩ = ⟨Real.sqrt 3 / 4, 1 / 4, Real.sqrt 3 / 2⟩ := by
  rw [vec_eq]; simp only [deg30, deg60, Real.cos_pi_div_six, Real.sin_pi_div_six, Real.cos_pi_div_three, Real.sin_pi_div_three]
  congr 1 <;> ring
theorem vec_45_60 : vec ⟨45, 60⟩ = ⟨Real.sqrt 2 / 4, Real.sqrt 2 / 4, Real.sqrt 3 / 2⟩ := by
  rw [vec_eq]; simp only [deg45, deg60, Real.cos_pi_div_four, Real.sin_pi_div_four, Real.cos_pi_div_three, Real.sin_pi_div_three]
  congr 1 <;> ring

theorem s2 : Real.sqrt 2 ^ 2 = 2 := Real.sq_sqrt (by norm_num)
theorem s3 : Real.sqrt 3 ^ 2 = 3 := Real.sq_sqrt (by norm_num)
theorem s2_lt : Real.sqrt 2 < 3 / 2 := by rw [Real.sqrt_lt' (by norm_num)]; norm_num
theorem s2_gt : 7 / 5 < Real.sqrt 2 := by rw [Real.lt_sqrt (by norm_num)]; norm_num
theorem s3_lt : Real.sqrt 3 < 9 / 5 := by rw [Real.sqrt_lt' (by norm_num)]; norm_num
theorem s3_gt : 17 / 10 < Real.sqrt 3 := by rw [Real.lt_sqrt (by norm_num)]; norm_num

/-- A line that goes to the east and comes back. -/
def turnA : List Pt := [⟨0, 0⟩, ⟨60, 0⟩, ⟨0, 60⟩]
/-- A line north of it. -/
def turnB : List Pt := [⟨30, 60⟩, ⟨45, 60⟩]

def a1 : Vec.Seg := ⟨⟨0, 0⟩, ⟨60, 0⟩⟩
def a2 : Vec.Seg := ⟨⟨60, 0⟩, ⟨0, 60⟩⟩

theorem a1_proper : Proper a1 := by constructor <;> simp [a1] <;> norm_num [abs_lt]
theorem a2_proper : Proper a2 := by constructor <;> simp [a2] <;> norm_num [abs_lt]

theorem a12_node : nodeOf a1 a2 = ⟨-(3 / 8), -(3 * Real.sqrt 3 / 8), 0⟩ ∧ nodeOf a2 a1 = ⟨3 / 8, 3 * Real.sqrt 3 / 8, 0⟩ := by
  have h := s3
  have h' : Real.sqrt 3 ^ 3 = 3 * Real.sqrt 3 := by rw [show Real.sqrt 3 ^ 3 = Real.sqrt 3 ^ 2 * Real.sqrt 3 by ring, h]
  unfold nodeOf pole a1 a2
  simp only [vec_0_0, vec_60_0, vec_0_60, cross3]
  constructor
  · congr 1
    · linear_combination (-1 / 8) * h
    · linear_combination (-1 / 8) * h'
    · ring
  · congr 1
    · linear_combination (1 / 8) * h
    · linear_combination (1 / 8) * h'
    · ring

theorem a12_hit : pairHit a1 a2 = true ∧ pairHit a2 a1 = true := by
  obtain ⟨n1, n2⟩ := a12_node
  have hd1 : Different a1 a2 := by unfold Different; rw [n1]; rintro ⟨h, -⟩; norm_num at h
  have hd2 : Different a2 a1 := by unfold Different; rw [n2]; rintro ⟨h, -⟩; norm_num at h
  have hm : ArcsMeet a1 a2 := by
    refine ⟨vec ⟨60, 0⟩, ?_, ⟨0, 1, by norm_num, by norm_num, ?_, ?_, ?_⟩, ⟨1, 0, by norm_num, by norm_num, ?_, ?_, ?_⟩⟩
    · rw [vec_60_0]; rintro ⟨h, -⟩; norm_num at h
    all_goals simp [a1, a2]
  refine ⟨(C137_pair_partial a1_proper a2_proper hd1 ?_).2 hm, (C137_pair_partial a2_proper a1_proper hd2 ?_).2 (arcsMeet_symm.1 hm)⟩
  · rw [n1]; left; rw [show (⟨-(3 / 8), -(3 * Real.sqrt 3 / 8), 0⟩ : V3).x = -(3 / 8) from rfl]; norm_num [abs_of_neg]
  · rw [n2]; right; norm_num

def ea1 : Ev := ⟨0, ⟨a1, false⟩, 0⟩
def ea2 : Ev := ⟨0, ⟨a2, false⟩, 0⟩

theorem turn_queue : ∃ rest, queueSph false turnA false turnB = [ea1, ea2] :: rest := by
  refine ⟨(queueSph false turnA false turnB).tail, ?_⟩
  decide +kernel

/-- **C138 (violated).**  Two lines without a point in common are reported to meet, in whatever places of the sweep line the
segments are put: two segments of the same line are tested against each other, and they have a vertex in common. -/
theorem C138_violated_turn : ¬ LinesMeet turnA turnB ∧
    ∀ ins : ℚ → CSeg → List CSeg → List CSeg, (∀ x s q, (ins x s q).Perm (s :: q)) →
      sweepSph ins verticalHitSph (fun s r => pairHit s.seg r.seg) (queueSph false turnA false turnB) [] = .ok true := by
  constructor
  · rintro ⟨s, hs, r, hr, h⟩
    have hs' : s = a1 ∨ s = a2 := by simpa [turnA, segsOf, a1, a2] using hs
    have hr' : r = ⟨⟨30, 60⟩, ⟨45, 60⟩⟩ := by simpa [turnB, segsOf] using hr
    have q3 := s3
    have q2 := s2_lt
    have q2' := s2_gt
    have q3' := s3_lt
    have q3'' := s3_gt
    rw [hr'] at h
    rcases hs' with rfl | rfl
    · refine separated (Real.sqrt 3) (-1) (-1) ?_ ?_ ?_ ?_ h <;> simp only [a1, vec_0_0, vec_60_0, vec_30_60, vec_45_60] <;> nlinarith
    · refine separated (Real.sqrt 3) (-1) (-1) ?_ ?_ ?_ ?_ h <;> simp only [a2, vec_60_0, vec_0_60, vec_30_60, vec_45_60] <;> nlinarith
  · intro ins hi
    obtain ⟨rest, hq⟩ := turn_queue
    rw [hq, sweepSph]
    have hp : (beginLoopSph ins [ea1, ea2] []).Perm [⟨a1, false⟩, ⟨a2, false⟩] := beginLoop_inserts hi [ea1, ea2] []
    obtain ⟨h1, h2⟩ := a12_hit
    have hcases : beginLoopSph ins [ea1, ea2] [] = [⟨a1, false⟩, ⟨a2, false⟩] ∨ beginLoopSph ins [ea1, ea2] [] = [⟨a2, false⟩, ⟨a1, false⟩] := by
      generalize beginLoopSph ins [ea1, ea2] [] = l at hp
      match l, hp.length_eq, hp with
      | [x, y], _, hp =>
        have hx : x = ⟨a1, false⟩ ∨ x = ⟨a2, false⟩ := by
          have := hp.mem_iff.1 (List.mem_cons_self (a := x) (l := [y])); simpa using this
        rcases hx with rfl | rfl
        · left
          have := (List.perm_cons _).1 hp
          rw [List.perm_singleton.1 this]
        · right
          have := (List.perm_cons _).1 (hp.trans (List.Perm.swap _ _ _))
          rw [List.perm_singleton.1 this]
    rcases hcases with e | e <;> rw [e]
    · have : endLoop (endingSegs [ea1, ea2]) [ea1, ea2] [⟨a1, false⟩, ⟨a2, false⟩] =
        .ok ([⟨a1, false⟩, ⟨a2, false⟩], [(ea1, none, none), (ea2, none, none)]) := rfl
      rw [this]
      dsimp only
      have hc : checkSph verticalHitSph (fun s r => pairHit s.seg r.seg) [⟨a1, false⟩, ⟨a2, false⟩] ea1 none none = .ok true := by
        unfold checkSph
        rw [if_neg (by decide), if_pos (show ea1.kind = 0 from rfl), show leftof [⟨a1, false⟩, ⟨a2, false⟩] ea1.seg = .ok none from rfl,
          show rightof [⟨a1, false⟩, ⟨a2, false⟩] ea1.seg = .ok (some ⟨a2, false⟩) from rfl]
        simp [ea1, h2]
      rw [checkLoopSph, hc]
    · have : endLoop (endingSegs [ea1, ea2]) [ea1, ea2] [⟨a2, false⟩, ⟨a1, false⟩] =
        .ok ([⟨a2, false⟩, ⟨a1, false⟩], [(ea1, none, none), (ea2, none, none)]) := rfl
      rw [this]
      dsimp only
      have hc : checkSph verticalHitSph (fun s r => pairHit s.seg r.seg) [⟨a2, false⟩, ⟨a1, false⟩] ea1 none none = .ok true := by
        unfold checkSph
        rw [if_neg (by decide), if_pos (show ea1.kind = 0 from rfl), show leftof [⟨a2, false⟩, ⟨a1, false⟩] ea1.seg = .ok (some ⟨a2, false⟩) from rfl,
          show rightof [⟨a2, false⟩, ⟨a1, false⟩] ea1.seg = .ok none from rfl]
        simp [ea1, h2]
      rw [checkLoopSph, hc]

/-! ### A crossing that is missed -/

theorem vec_m30_0 : vec ⟨-30, 0⟩ = ⟨Real.sqrt 3 / 2, -(1 / 2), 0⟩ := by
  rw [vec_eq]; simp only [deg0, degm30, Real.cos_neg, Real.sin_neg, Real.cos_pi_div_six, Real.sin_pi_div_six, Real.cos_zero, Real.sin_zero]
  congr 1 <;> ring
theorem vec_90_0 : vec ⟨90, 0⟩ = ⟨0, 1, 0⟩ := by
  rw [vec_eq]; simp only [deg0, deg90, Real.cos_pi_div_two, Real.sin_pi_div_two, Real.cos_zero, Real.sin_zero]; norm_num
theorem vec_0_m30 : vec ⟨0, -30⟩ = ⟨Real.sqrt 3 / 2, 0, -(1 / 2)⟩ := by
  rw [vec_eq]; simp only [deg0, degm30, Real.cos_neg, Real.sin_neg, Real.cos_pi_div_six, Real.sin_pi_div_six, Real.cos_zero, Real.sin_zero]
  congr 1 <;> ring
theorem vec_45_m30 : vec ⟨45, -30⟩ = ⟨Real.sqrt 3 * Real.sqrt 2 / 4, Real.sqrt 3 * Real.sqrt 2 / 4, -(1 / 2)⟩ := by
  rw [vec_eq]; simp only [deg45, degm30, Real.cos_neg, Real.sin_neg, Real.cos_pi_div_six, Real.sin_pi_div_six, Real.cos_pi_div_four, Real.sin_pi_div_four]
  congr 1 <;> ring
theorem vec_60_30 : vec ⟨60, 30⟩ = ⟨Real.sqrt 3 / 4, 3 / 4, 1 / 2⟩ := by
  rw [vec_eq]; simp only [deg30, deg60, Real.cos_pi_div_six, Real.sin_pi_div_six, Real.cos_pi_div_three, Real.sin_pi_div_three]
  congr 1
  · ring
  · linear_combination (1 / 4) * s3

/-- A line that goes to the east. -/
def missA : List Pt := [⟨0, -30⟩, ⟨45, -30⟩, ⟨60, 30⟩]
/-- A line that goes to the east along the equator and comes back. -/
def missB : List Pt := [⟨-30, 0⟩, ⟨90, 0⟩, ⟨30, 60⟩]

def m1 : Vec.Seg := ⟨⟨0, -30⟩, ⟨45, -30⟩⟩
def m2 : Vec.Seg := ⟨⟨45, -30⟩, ⟨60, 30⟩⟩
def b1 : Vec.Seg := ⟨⟨-30, 0⟩, ⟨90, 0⟩⟩
def b2 : Vec.Seg := ⟨⟨90, 0⟩, ⟨30, 60⟩⟩

theorem m1_proper : Proper m1 := by constructor <;> simp [m1] <;> norm_num [abs_lt]
theorem m2_proper : Proper m2 := by constructor <;> simp [m2] <;> norm_num [abs_lt]
theorem b1_proper : Proper b1 := by constructor <;> simp [b1] <;> norm_num [abs_lt]
theorem b2_proper : Proper b2 := by constructor <;> simp [b2] <;> norm_num [abs_lt]

/-- A pair of arcs that do not meet is not found, if the computed direction is on the near side. -/
theorem no_hit {s r : Vec.Seg} (hs : Proper s) (hr : Proper r) (hx : 0 < (nodeOf s r).x) (h : ¬ ArcsMeet s r) : pairHit s r = false := by
  have := C137_pair_partial hs hr (fun h0 => hx.ne' h0.1) (Or.inr hx.le)
  cases hp : pairHit s r with
  | false => rfl
  | true => exact absurd (this.1 hp) h

theorem hit_b1_m1 : pairHit b1 m1 = false := by
  have q1 := s2_lt
  have q2 := s3_gt
  refine no_hit b1_proper m1_proper ?_ ?_
  · unfold nodeOf pole b1 m1
    simp only [vec_m30_0, vec_90_0, vec_0_m30, vec_45_m30, cross3]
    have h3 := s3
    have : Real.sqrt 3 * Real.sqrt 3 * (1 / 2 - Real.sqrt 2 / 4) > 0 := by
      apply mul_pos (by nlinarith); linarith
    nlinarith
  · refine separated 0 0 1 ?_ ?_ ?_ ?_ <;> simp only [b1, m1, vec_m30_0, vec_90_0, vec_0_m30, vec_45_m30] <;> norm_num

theorem hit_m1_b2 : pairHit m1 b2 = false := by
  have q1 := s2_lt
  have q2 := s3_gt
  refine no_hit m1_proper b2_proper ?_ ?_
  · unfold nodeOf pole b2 m1
    simp only [vec_30_60, vec_90_0, vec_0_m30, vec_45_m30, cross3]
    have h3 := s3
    have : Real.sqrt 3 * Real.sqrt 3 * (1 / 2 - Real.sqrt 2 / 4) > 0 := by
      apply mul_pos (by nlinarith); linarith
    nlinarith
  · rw [arcsMeet_symm]
    refine separated 0 0 1 ?_ ?_ ?_ ?_ <;> simp only [b2, m1, vec_30_60, vec_90_0, vec_0_m30, vec_45_m30] <;>
      first | (norm_num; done) | nlinarith

theorem hit_b2_m2 : pairHit b2 m2 = false := by
  have q1 := s2_gt
  have q2 := s3_gt
  have q4 := s3_lt
  have h3 := s3
  have h23 : 0 < Real.sqrt 3 * Real.sqrt 2 := by positivity
  refine no_hit b2_proper m2_proper ?_ ?_
  · unfold nodeOf pole b2 m2
    simp only [vec_30_60, vec_90_0, vec_60_30, vec_45_m30, cross3]
    have : 0 < Real.sqrt 3 * (Real.sqrt 3 * Real.sqrt 2) := by positivity
    nlinarith
  · refine separated (-Real.sqrt 3) 0 1 ?_ ?_ ?_ ?_ <;> simp only [b2, m2, vec_30_60, vec_90_0, vec_60_30, vec_45_m30] <;> nlinarith

theorem sweep_skip {vert hit : CSeg → CSeg → Bool} {b : List Ev} {bs : List (List Ev)} {q q' : List CSeg}
    {out : List (Ev × Option CSeg × Option CSeg)} (he : endLoop (endingSegs b) b (beginLoopSph front b q) = .ok (q', out))
    (hc : checkLoopSph vert hit q' out = .ok false) : sweepSph front vert hit (b :: bs) q = sweepSph front vert hit bs q' := by
  rw [sweepSph, he]
  dsimp only
  rw [hc]

theorem check_skip {vert hit : CSeg → CSeg → Bool} {q : List CSeg} {e : Ev} {l r : Option CSeg}
    {es : List (Ev × Option CSeg × Option CSeg)} (hc : checkSph vert hit q e l r = .ok false) :
    checkLoopSph vert hit q ((e, l, r) :: es) = checkLoopSph vert hit q es := by
  rw [checkLoopSph, hc]

theorem check_new {vert hit : CSeg → CSeg → Bool} {q : List CSeg} {x : ℚ} {s : CSeg} {l r l' r' : Option CSeg} (h1 : leftof q s = .ok l')
    (h2 : rightof q s = .ok r') (g1 : ∀ t, l' = some t → hit t s = false) (g2 : ∀ t, r' = some t → hit t s = false) :
    checkSph vert hit q ⟨x, s, 0⟩ l r = .ok false := by
  unfold checkSph
  dsimp only
  rw [if_neg (by decide), if_pos rfl, h1, h2]
  cases l' with
  | none =>
    cases r' with
    | none => rfl
    | some t => simp [g2 t rfl]
  | some u =>
    cases r' with
    | none => simp [g1 u rfl]
    | some t => simp [g1 u rfl, g2 t rfl]

theorem check_old {vert hit : CSeg → CSeg → Bool} {q : List CSeg} {x : ℚ} {s : CSeg} {l r : Option CSeg}
    (g : ∀ t, r = some t → l ≠ none → hit t s = false) : checkSph vert hit q ⟨x, s, 1⟩ l r = .ok false := by
  unfold checkSph
  dsimp only
  rw [if_neg (by decide), if_neg (by decide), if_pos rfl]
  cases l with
  | none => rfl
  | some u =>
    cases r with
    | none => rfl
    | some t => simp [g t rfl (by simp)]

def cm1 : CSeg := ⟨m1, false⟩
def cm2 : CSeg := ⟨m2, false⟩
def cb1 : CSeg := ⟨b1, true⟩
def cb2 : CSeg := ⟨b2, true⟩

theorem miss_queue : queueSph false missA false missB =
    [[⟨-30, cb1, 0⟩], [⟨0, cm1, 0⟩], [⟨30, cb2, 0⟩], [⟨45, cm1, 1⟩, ⟨45, cm2, 0⟩], [⟨60, cm2, 1⟩], [⟨90, cb1, 1⟩, ⟨90, cb2, 1⟩]] := by
  decide +kernel

/-- **C138 (violated).**  Two lines that cross are reported not to meet, when the heights are NaN: when a segment ends, the
segments that become neighbours are not tested against each other. -/
theorem C138_violated_missed : LinesMeet missA missB ∧ intersectsSph false missA false missB = .ok false := by
  constructor
  · refine ⟨m2, by simp [missA, segsOf, m2], b1, by simp [missB, segsOf, b1], ?_⟩
    have hpi := Real.pi_pos
    have q3 := s3
    have hc : 0 < Real.cos (Real.pi / 24) := Real.cos_pos_of_mem_Ioo ⟨by linarith, by linarith⟩
    have hl : HasLon ⟨(vec m2.a).x + (vec m2.b).x, (vec m2.a).y + (vec m2.b).y, 0⟩ ((105 : ℝ) / 2) := by
      refine ⟨Real.sqrt 3 * Real.cos (Real.pi / 24), by positivity, ?_, ?_⟩
      · have e1 : Real.cos (Real.pi / 4) + Real.cos (Real.pi / 3) = 2 * Real.cos (Real.pi * (105 / 2) / 180) * Real.cos (Real.pi / 24) := by
          rw [Real.cos_add_cos]
          rw [show (Real.pi / 4 + Real.pi / 3) / 2 = Real.pi * (105 / 2) / 180 by ring, show (Real.pi / 4 - Real.pi / 3) / 2 = -(Real.pi / 24) by ring,
            Real.cos_neg]
        rw [Real.cos_pi_div_four, Real.cos_pi_div_three] at e1
        simp only [m2, vec_45_m30, vec_60_30]
        linear_combination (Real.sqrt 3 / 2) * e1
      · have e1 : Real.sin (Real.pi / 4) + Real.sin (Real.pi / 3) = 2 * Real.sin (Real.pi * (105 / 2) / 180) * Real.cos (Real.pi / 24) := by
          rw [Real.sin_add_sin]
          rw [show (Real.pi / 4 + Real.pi / 3) / 2 = Real.pi * (105 / 2) / 180 by ring, show (Real.pi / 4 - Real.pi / 3) / 2 = -(Real.pi / 24) by ring,
            Real.cos_neg]
        rw [Real.sin_pi_div_four, Real.sin_pi_div_three] at e1
        simp only [m2, vec_45_m30, vec_60_30]
        linear_combination (Real.sqrt 3 / 2) * e1 - (1 / 4) * q3
    refine ⟨⟨(vec m2.a).x + (vec m2.b).x, (vec m2.a).y + (vec m2.b).y, 0⟩, ?_, ⟨1, 1, by norm_num, by norm_num, by ring, by ring, ?_⟩, ?_⟩
    · rintro ⟨-, h, -⟩
      simp only [m2, vec_45_m30, vec_60_30] at h
      have : 0 < Real.sqrt 3 * Real.sqrt 2 := by positivity
      linarith
    · simp only [m2, vec_45_m30, vec_60_30]; ring
    · refine (arc_iff b1_proper hl (by norm_num) (by norm_num) ?_).1 ?_
      · simp only [V3.dot, normal, cross, b1, vec_m30_0, vec_90_0]; ring
      · unfold betweenInc b1
        constructor
        · rw [min_le_iff]; left; push_cast; norm_num
        · rw [le_max_iff]; right; push_cast; norm_num
  · unfold intersectsSph
    rw [sweepInsertSph_front, miss_queue]
    rw [sweep_skip (q' := [cb1]) (out := [(⟨-30, cb1, 0⟩, none, none)]) rfl
      (check_skip (check_new (l' := none) (r' := none) rfl rfl (by simp) (by simp)))]
    rw [sweep_skip (q' := [cm1, cb1]) (out := [(⟨0, cm1, 0⟩, none, none)]) rfl
      (check_skip (check_new (l' := none) (r' := some cb1) rfl rfl (by simp) (by
        intro t ht; injection ht with ht; subst ht; exact hit_b1_m1)))]
    rw [sweep_skip (q' := [cb2, cm1, cb1]) (out := [(⟨30, cb2, 0⟩, none, none)]) rfl
      (check_skip (check_new (l' := none) (r' := some cm1) rfl rfl (by simp) (by
        intro t ht; injection ht with ht; subst ht; exact hit_m1_b2)))]
    rw [sweep_skip (q' := [cm2, cb2, cb1]) (out := [(⟨45, cm1, 1⟩, some cb2, some cb1), (⟨45, cm2, 0⟩, none, none)]) rfl
      ((check_skip (check_old (by
        intro t ht _; injection ht with ht; subst ht; exact hit_b1_m1))).trans
        (check_skip (check_new (l' := none) (r' := some cb2) rfl rfl (by simp) (by
        intro t ht; injection ht with ht; subst ht; exact hit_b2_m2))))]
    rw [sweep_skip (q' := [cb2, cb1]) (out := [(⟨60, cm2, 1⟩, none, some cb2)]) rfl
      (check_skip (check_old (by intro t _ h; exact absurd rfl h)))]
    rw [sweep_skip (q' := []) (out := [(⟨90, cb1, 1⟩, none, none), (⟨90, cb2, 1⟩, none, none)]) rfl
      ((check_skip (check_old (by intro t _ h; exact absurd rfl h))).trans (check_skip (check_old (by intro t _ h; exact absurd rfl h))))]
    rfl

/-! ### Cases that meet the conditions -/

theorem example_node' : nodeOf exampleR exampleS = ⟨-(Real.sqrt 2 / 2), 0, 0⟩ := by
  have h := example_node
  have e : nodeOf exampleR exampleS = V3.opp (nodeOf exampleS exampleR) := by
    rw [node_eq, node_eq]; unfold V3.opp cross; congr 1 <;> ring
  rw [e, h]
  simp [V3.opp]

theorem half_sqrt : 1 / 10 ^ 8 < |(-(Real.sqrt 2 / 2) : ℝ)| := by
  have := s2_gt
  rw [abs_neg, abs_of_pos (by positivity)]
  have : (1 : ℝ) / 10 ^ 8 < 7 / 10 := by norm_num
  linarith

/-- Two lines of one segment each, for which the answer is yes. -/
example : OneWay [⟨-45, 0⟩, ⟨45, 0⟩] ∧ OneWay [⟨45, 45⟩, ⟨-45, -45⟩] ∧ General [⟨-45, 0⟩, ⟨45, 0⟩] [⟨45, 45⟩, ⟨-45, -45⟩] ∧
    NoneFar [⟨-45, 0⟩, ⟨45, 0⟩] [⟨45, 45⟩, ⟨-45, -45⟩] ∧
    intersectsSph false [⟨-45, 0⟩, ⟨45, 0⟩] false [⟨45, 45⟩, ⟨-45, -45⟩] = .ok true := by
  have hp : 0 < Real.sqrt 2 / 2 := by positivity
  have sa : ∀ s ∈ segsOf false [⟨-45, 0⟩, ⟨45, 0⟩], s = exampleS := by intro s hs; simpa [segsOf, exampleS] using hs
  have sb : ∀ s ∈ segsOf false [⟨45, 45⟩, ⟨-45, -45⟩], s = exampleR := by intro s hs; simpa [segsOf, exampleR] using hs
  have hd : Different exampleS exampleR := by
    unfold Different; rw [example_node]; rintro ⟨h, -⟩; exact hp.ne' h
  have h1 : OneWay [⟨-45, 0⟩, ⟨45, 0⟩] := by
    refine ⟨by norm_num, by norm_num, ?_, Or.inl (by norm_num)⟩
    intro s hs
    rw [sa s hs]; norm_num [exampleS, abs_lt]
  have h2 : OneWay [⟨45, 45⟩, ⟨-45, -45⟩] := by
    refine ⟨by norm_num, by norm_num, ?_, Or.inr (by norm_num)⟩
    intro s hs
    rw [sb s hs]; norm_num [exampleR, abs_lt]
  have h3 : General [⟨-45, 0⟩, ⟨45, 0⟩] [⟨45, 45⟩, ⟨-45, -45⟩] := by
    refine ⟨by norm_num, ?_, ?_, ?_⟩
    · intro s hs h; rw [sa s hs] at h; norm_num [exampleS] at h
    · intro s hs h; rw [sb s hs] at h; norm_num [exampleR] at h
    · intro s hs r hr _ _; rw [sa s hs, sb r hr]; exact hd
  have h4 : NoneFar [⟨-45, 0⟩, ⟨45, 0⟩] [⟨45, 45⟩, ⟨-45, -45⟩] := by
    refine ⟨?_, ?_, ?_⟩
    · intro s hs r hr
      rw [sa s hs, sb r hr, example_node, example_node']
      exact ⟨Or.inr hp.le, Or.inl half_sqrt⟩
    · intro s _ r hr h; rw [sb r hr] at h; norm_num [exampleR] at h
    · intro s hs r _ h; rw [sa s hs] at h; norm_num [exampleS] at h
  refine ⟨h1, h2, h3, h4, ?_⟩
  rcases C138_one_way_partial h1 h2 h3 h4 with h | ⟨-, h⟩
  · exact h.1
  · exfalso
    apply h
    refine ⟨exampleS, by simp [segsOf, exampleS], exampleR, by simp [segsOf, exampleR], ?_⟩
    rw [meet_iff_node hd, example_node]
    left
    have neg : Real.pi * ((-45 : ℚ) : ℝ) / 180 = -(Real.pi * ((45 : ℚ) : ℝ) / 180) := by push_cast; ring
    have q2 := s2
    constructor
    · refine ⟨1 / 2, 1 / 2, by norm_num, by norm_num, ?_, ?_, ?_⟩ <;>
      · unfold exampleS
        rw [vec_eq, vec_eq]
        dsimp only
        try rw [neg]
        rw [deg0]
        simp only [Real.cos_neg, Real.sin_neg, Real.cos_zero, Real.sin_zero, cos45, sin45]
        ring
    · refine ⟨Real.sqrt 2 / 2, Real.sqrt 2 / 2, hp.le, hp.le, ?_, ?_, ?_⟩ <;> unfold exampleR <;> rw [vec_eq, vec_eq] <;> dsimp only <;>
        rw [neg] <;> simp only [Real.cos_neg, Real.sin_neg, cos45, sin45]
      · linear_combination -(Real.sqrt 2 / 4) * q2
      · ring
      · ring

/-- A segment along the meridian 0 and one along the equator, for which the test of meridians says yes. -/
example : Meridional ⟨⟨0, -45⟩, ⟨0, 45⟩⟩ ∧ Proper exampleS ∧ NotFar (meridianNode exampleS 0) ∧
    verticalHitSph ⟨⟨⟨0, -45⟩, ⟨0, 45⟩⟩, true⟩ ⟨exampleS, false⟩ = true := by
  have h1 : Meridional ⟨⟨0, -45⟩, ⟨0, 45⟩⟩ := by constructor <;> norm_num
  have h2 : Proper exampleS := by constructor <;> simp [exampleS] <;> norm_num [abs_lt]
  have neg : Real.pi * ((-45 : ℚ) : ℝ) / 180 = -(Real.pi * ((45 : ℚ) : ℝ) / 180) := by push_cast; ring
  have q2 := s2
  have hn : meridianNode exampleS 0 = ⟨-1, 0, 0⟩ := by
    rw [meridianNode_eq]
    unfold normal exampleS cross
    rw [vec_eq, vec_eq]
    dsimp only
    rw [neg, deg0]
    simp only [Real.cos_neg, Real.sin_neg, Real.cos_zero, Real.sin_zero, cos45, sin45]
    congr 1
    · linear_combination (-1 / 2) * q2
    · ring
    · ring
  have h3 : NotFar (meridianNode exampleS 0) := by rw [hn]; left; norm_num
  refine ⟨h1, h2, h3, ?_⟩
  refine (C137_meridian_partial (v := ⟨⟨⟨0, -45⟩, ⟨0, 45⟩⟩, true⟩) (s := ⟨exampleS, false⟩) (by simp) h1 h2 (by norm_num [exampleS])
    (by norm_num [exampleS]) h3).2 ?_
  refine ⟨⟨1, 0, 0⟩, by norm_num, ⟨Real.sqrt 2 / 2, Real.sqrt 2 / 2, by positivity, by positivity, ?_, ?_, ?_⟩,
    ⟨Real.sqrt 2 / 2, Real.sqrt 2 / 2, by positivity, by positivity, ?_, ?_, ?_⟩⟩ <;>
    (try unfold exampleS) <;> rw [vec_eq, vec_eq] <;> dsimp only <;> (try rw [neg]) <;> (try rw [deg0]) <;>
    simp only [Real.cos_neg, Real.sin_neg, Real.cos_zero, Real.sin_zero, cos45, sin45]
  · linear_combination (-1 / 2) * q2
  · ring
  · ring
  · linear_combination (-1 / 2) * q2
  · ring
  · ring

end Karta.Geod.Cross
