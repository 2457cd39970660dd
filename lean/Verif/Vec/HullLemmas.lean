import Verif.Vec.Hull
import Mathlib.Tactic.Linarith
import Mathlib.Tactic.LinearCombination
import Mathlib.Tactic.FieldSimp
import Mathlib.Tactic.Ring
import Mathlib.Tactic.Positivity
import Mathlib.Algebra.Order.Field.Basic

namespace Karta.Vec.Hull
open Karta Karta.Vec

variable {K : Type} [Field K] [LinearOrder K] [IsStrictOrderedRing K]

/-- Spec: the convex hull of the set `S`, that is, the smallest set that contains `S` and with two points
also the segment between them. -/
inductive Conv (S : P2 K → Prop) : P2 K → Prop
  | base {p : P2 K} : S p → Conv S p
  | mix {p q : P2 K} (t : K) : Conv S p → Conv S q → 0 ≤ t → t ≤ 1 →
      Conv S ⟨p.x + t * (q.x - p.x), p.y + t * (q.y - p.y)⟩

/-- Points that may be seen from the leftmost, uppermost one. -/
def Half (L p : P2 K) : Prop := L.x < p.x ∨ (p.x = L.x ∧ p.y < L.y)

theorem conv_mono {S T : P2 K → Prop} (h : ∀ p, S p → Conv T p) {p : P2 K} (hp : Conv S p) : Conv T p := by
  induction hp with
  | base hs => exact h _ hs
  | mix t _ _ h0 h1 ih1 ih2 => exact .mix t ih1 ih2 h0 h1

theorem turn_conv {S : P2 K → Prop} {a b : P2 K} (h : ∀ p, S p → 0 ≤ turn a b p) {p : P2 K} (hp : Conv S p) :
    0 ≤ turn a b p := by
  induction hp with
  | base hs => exact h _ hs
  | @mix p q t _ _ h0 h1 ih1 ih2 =>
    have : turn a b ⟨p.x + t * (q.x - p.x), p.y + t * (q.y - p.y)⟩ = (1 - t) * turn a b p + t * turn a b q := by
      simp only [turn]; ring
    rw [this]
    have : 0 ≤ 1 - t := by linarith
    positivity

theorem tie_zero {L a b i : P2 K} (ha : Half L a) (hb : Half L b) (hi : Half L i) (h1 : 0 ≤ turn L a b)
    (h2 : 0 ≤ turn L b i) (h3 : turn L a i = 0) : turn L a b = 0 ∧ turn L b i = 0 := by
  have ex : turn L a b * (i.x - L.x) + turn L b i * (a.x - L.x) = 0 := by
    have : turn L a b * (i.x - L.x) + turn L b i * (a.x - L.x) = turn L a i * (b.x - L.x) := by
      simp only [turn]; ring
    rw [this, h3, zero_mul]
  have ey : turn L a b * (i.y - L.y) + turn L b i * (a.y - L.y) = 0 := by
    have : turn L a b * (i.y - L.y) + turn L b i * (a.y - L.y) = turn L a i * (b.y - L.y) := by
      simp only [turn]; ring
    rw [this, h3, zero_mul]
  have h3' : (a.x - L.x) * (i.y - L.y) = (a.y - L.y) * (i.x - L.x) := by
    have := h3; simp only [turn] at this; linarith
  rcases ha with ha | ⟨ha, ha'⟩ <;> rcases hi with hi | ⟨hi, hi'⟩
  · have p1 : 0 ≤ turn L a b * (i.x - L.x) := mul_nonneg h1 (by linarith)
    have p2 : 0 ≤ turn L b i * (a.x - L.x) := mul_nonneg h2 (by linarith)
    have q1 : turn L a b * (i.x - L.x) = 0 := by linarith
    have q2 : turn L b i * (a.x - L.x) = 0 := by linarith
    constructor
    · rcases mul_eq_zero.mp q1 with h | h
      · exact h
      · linarith
    · rcases mul_eq_zero.mp q2 with h | h
      · exact h
      · linarith
  · rw [hi, sub_self, mul_zero] at h3'
    rcases mul_eq_zero.mp h3' with h | h <;> linarith
  · rw [ha, sub_self, zero_mul] at h3'
    rcases mul_eq_zero.mp h3'.symm with h | h <;> linarith
  · have p1 : 0 ≤ turn L a b * (L.y - i.y) := mul_nonneg h1 (by linarith)
    have p2 : 0 ≤ turn L b i * (L.y - a.y) := mul_nonneg h2 (by linarith)
    have q1 : turn L a b * (L.y - i.y) = 0 := by linarith
    have q2 : turn L b i * (L.y - a.y) = 0 := by linarith
    constructor
    · rcases mul_eq_zero.mp q1 with h | h
      · exact h
      · linarith
    · rcases mul_eq_zero.mp q2 with h | h
      · exact h
      · linarith

/-- Two points seen in the same direction are multiples of each other. -/
theorem same_dir {L a b : P2 K} (ha : Half L a) (hb : Half L b) (h : turn L a b = 0) :
    ∃ m : K, 0 < m ∧ b.x - L.x = m * (a.x - L.x) ∧ b.y - L.y = m * (a.y - L.y) := by
  have h' : (a.x - L.x) * (b.y - L.y) = (a.y - L.y) * (b.x - L.x) := by
    have := h; simp only [turn] at this; linarith
  rcases ha with ha | ⟨ha, ha'⟩
  · have hp : 0 < a.x - L.x := by linarith
    rcases hb with hb | ⟨hb, hb'⟩
    · refine ⟨(b.x - L.x) / (a.x - L.x), div_pos (by linarith) hp, by field_simp, ?_⟩
      field_simp; linarith
    · rw [hb, sub_self, mul_zero] at h'
      rcases mul_eq_zero.mp h' with h | h <;> linarith
  · have hp : a.y - L.y < 0 := by linarith
    rw [ha, sub_self, zero_mul] at h'
    have hbx : b.x - L.x = 0 := by
      rcases mul_eq_zero.mp h'.symm with h | h
      · linarith
      · exact h
    have hb' : b.y < L.y := by
      rcases hb with hb | ⟨_, hb⟩
      · linarith
      · exact hb
    refine ⟨(b.y - L.y) / (a.y - L.y), div_pos_of_neg_of_neg (by linarith) hp, ?_, ?_⟩
    · rw [hbx, ha, sub_self, mul_zero]
    · have := hp.ne; field_simp

/-- If `a`, `b` lie in the same direction and the hull turned left at `a` on the way to `b`, then `b` is the
nearer one. -/
theorem nearer {L a0 a b : P2 K} (ha : Half L a) (hb : Half L b) (h : turn L a b = 0)
    (h0 : 0 ≤ turn L a0 a) (ht : 0 < turn a0 a b) :
    ∃ m : K, 0 < m ∧ m < 1 ∧ b.x - L.x = m * (a.x - L.x) ∧ b.y - L.y = m * (a.y - L.y) := by
  obtain ⟨m, hm, ex, ey⟩ := same_dir ha hb h
  refine ⟨m, hm, ?_, ex, ey⟩
  have : turn a0 a b = (1 - m) * turn L a0 a := by
    have bx : b.x = L.x + m * (a.x - L.x) := by linarith
    have byy : b.y = L.y + m * (a.y - L.y) := by linarith
    simp only [turn, bx, byy]; ring
  rw [this] at ht
  by_contra hge
  have : (1 - m) * turn L a0 a ≤ 0 := mul_nonpos_of_nonpos_of_nonneg (by linarith) h0
  linarith

theorem conv_of_multiple {S : P2 K → Prop} {L a b : P2 K} (hL : Conv S L) (ha : Conv S a) {m : K} (h0 : 0 ≤ m)
    (h1 : m ≤ 1) (ex : b.x - L.x = m * (a.x - L.x)) (ey : b.y - L.y = m * (a.y - L.y)) : Conv S b := by
  have := Conv.mix m hL ha h0 h1
  have e : (⟨L.x + m * (a.x - L.x), L.y + m * (a.y - L.y)⟩ : P2 K) = b := by
    cases b; congr 1 <;> simp only at ex ey <;> linarith
  rwa [e] at this

/-- The vertex that is popped lies in the triangle of the leftmost one, its predecessor and the new one. -/
theorem conv_triangle {S : P2 K → Prop} {L a b i : P2 K} (hL : Conv S L) (ha : Conv S a) (hi : Conv S i)
    (h1 : 0 ≤ turn L a b) (h2 : 0 ≤ turn L b i) (h3 : 0 < turn L a i) (ht : turn a b i ≤ 0) : Conv S b := by
  have hsum : turn L a b + turn L b i ≤ turn L a i := by
    have : turn a b i = turn L a b + turn L b i - turn L a i := by simp only [turn]; ring
    linarith
  by_cases hs : turn L a b + turn L b i = 0
  · have e1 : turn L a b = 0 := by linarith
    have e2 : turn L b i = 0 := by linarith
    have ex : turn L a i * (b.x - L.x) = 0 := by
      have : turn L a i * (b.x - L.x) = turn L a b * (i.x - L.x) + turn L b i * (a.x - L.x) := by
        simp only [turn]; ring
      rw [this, e1, e2]; ring
    have ey : turn L a i * (b.y - L.y) = 0 := by
      have : turn L a i * (b.y - L.y) = turn L a b * (i.y - L.y) + turn L b i * (a.y - L.y) := by
        simp only [turn]; ring
      rw [this, e1, e2]; ring
    have ex' := (mul_eq_zero.mp ex).resolve_left h3.ne'
    have ey' := (mul_eq_zero.mp ey).resolve_left h3.ne'
    have : b = L := by cases b; cases L; simp only [P2.mk.injEq]; simp only at ex' ey'; constructor <;> linarith
    rw [this]; exact hL
  · have hpos : 0 < turn L a b + turn L b i := lt_of_le_of_ne (by linarith) (Ne.symm hs)
    have hq := Conv.mix (turn L a b / (turn L a b + turn L b i)) ha hi (by positivity)
      (by rw [div_le_one hpos]; linarith)
    refine conv_of_multiple hL hq (m := (turn L a b + turn L b i) / turn L a i) (by positivity)
      (by rw [div_le_one h3]; exact hsum) ?_ ?_
    · have : turn L a i * (b.x - L.x) = turn L a b * (i.x - L.x) + turn L b i * (a.x - L.x) := by
        simp only [turn]; ring
      have hne := h3.ne'; have hne' := hpos.ne'
      generalize turn L a i = u at *
      generalize turn L a b = v at *
      generalize turn L b i = w at *
      simp only
      field_simp
      linarith
    · have : turn L a i * (b.y - L.y) = turn L a b * (i.y - L.y) + turn L b i * (a.y - L.y) := by
        simp only [turn]; ring
      have hne := h3.ne'; have hne' := hpos.ne'
      generalize turn L a i = u at *
      generalize turn L a b = v at *
      generalize turn L b i = w at *
      simp only
      field_simp
      linarith

/-- Strict left turns along a hull listed from its end. -/
def Turns : List (P2 K) → Prop
  | c :: b :: a :: r => 0 < turn a b c ∧ Turns (b :: a :: r)
  | _ => True

/-- `p` is on the left of, or on, every edge of a hull listed from its end. -/
def AllLeft (p : P2 K) : List (P2 K) → Prop
  | b :: a :: r => 0 ≤ turn a b p ∧ AllLeft p (a :: r)
  | _ => True

/-- The state of the scan. -/
structure Good (L g : P2 K) (pre : List (P2 K)) : Prop where
  halfg : Half L g
  half : ∀ x ∈ pre, Half L x
  ord : pre.Pairwise fun x y => 0 ≤ turn L y x
  str : ∀ x ∈ pre, 0 < turn L g x
  turns : Turns (pre ++ [g, L])

theorem Good.tail {L g b : P2 K} {pre : List (P2 K)} (h : Good L g (b :: pre)) : Good L g pre := by
  refine ⟨h.halfg, fun x hx => h.half x (by simp [hx]), h.ord.tail, fun x hx => h.str x (by simp [hx]), ?_⟩
  have := h.turns
  cases pre with
  | nil => trivial
  | cons a r =>
    cases r with
    | nil => exact this.2
    | cons a' r => exact this.2

/-- Point-level version of the inner loop. -/
def popPts (i : P2 K) : List (P2 K) → Except Err (List (P2 K))
  | b :: a :: st => if isleft a b i then .ok (b :: a :: st) else popPts i (a :: st)
  | _ => .error .indexError

theorem turn_self_right (L i : P2 K) : turn L i i = 0 := by simp only [turn]; ring
theorem turn_L_right (L i : P2 K) : turn L i L = 0 := by simp only [turn]; ring
theorem turn_L_left (L i : P2 K) : turn L L i = 0 := by simp only [turn]; ring

/-- The inner loop stops in time, keeps a suffix, and what it drops lies in the hull of what is kept. -/
theorem popPts_spec {L g i : P2 K} : ∀ (pre : List (P2 K)), Good L g pre → (Half L i ∨ (i = L ∧ pre ≠ [])) →
    (∀ x ∈ pre, 0 ≤ turn L x i) → (Half L i → 0 < turn L g i) →
    ∃ pre' d : List (P2 K), pre = d ++ pre' ∧ popPts i (pre ++ [g, L]) = .ok (pre' ++ [g, L]) ∧
      (∀ a b r, pre' ++ [g, L] = b :: a :: r → 0 < turn a b i) ∧
      (i = L → ∃ top r, pre' = top :: r ∧ ∀ x ∈ d, turn L top x = 0) ∧
      (∀ x ∈ d, Conv (fun p => p ∈ i :: (pre' ++ [g, L])) x)
  | [], hg, hi, hx, hs => by
    have hi' : Half L i := by
      rcases hi with h | ⟨_, h⟩
      · exact h
      · exact absurd rfl h
    have hp := hs hi'
    refine ⟨[], [], rfl, ?_, ?_, ?_, by simp⟩
    · have : isleft L g i = true := by simpa [isleft] using hp
      simp [popPts, this]
    · intro a b r h
      simp only [List.nil_append, List.cons.injEq] at h
      obtain ⟨rfl, rfl, _⟩ := h
      exact hp
    · intro h; subst h
      rcases hi' with h | ⟨_, h⟩ <;> exact absurd h (lt_irrefl _)
  | b :: pre, hg, hi, hx, hs => by
    obtain ⟨a, r, har⟩ : ∃ a r, pre ++ [g, L] = a :: r := by cases pre <;> simp
    by_cases ht : 0 < turn a b i
    · refine ⟨b :: pre, [], rfl, ?_, ?_, fun _ => ⟨b, pre, rfl, by simp⟩, by simp⟩
      · rw [List.cons_append, har, popPts, if_pos (by simpa [isleft] using ht)]
      · intro a' b' r' h
        rw [List.cons_append, har] at h
        simp only [List.cons.injEq] at h
        obtain ⟨rfl, rfl, _⟩ := h
        exact ht
    · have hab : 0 ≤ turn L a b := by
        cases pre with
        | nil =>
          simp only [List.nil_append, List.cons.injEq] at har
          rw [← har.1]; exact (hg.str b (by simp)).le
        | cons a' pre =>
          simp only [List.cons_append, List.cons.injEq] at har
          rw [← har.1]
          exact (List.pairwise_cons.mp hg.ord).1 a' (by simp)
      have hbi : 0 ≤ turn L b i := hx b (by simp)
      have hpre : i = L → pre ≠ [] := by
        rintro rfl rfl
        simp only [List.nil_append, List.cons.injEq] at har
        apply ht
        have := hg.str b (by simp)
        rw [← har.1]
        have e : turn g b i = turn i g b := by simp only [turn]; ring
        rw [e]; exact this
      obtain ⟨pre', d, e1, e2, e3, e4, e5⟩ := popPts_spec pre hg.tail
        (by rcases hi with h | ⟨h, _⟩
            · exact Or.inl h
            · exact Or.inr ⟨h, hpre h⟩) (fun x h => hx x (by simp [h])) hs
      have haS : Conv (fun p => p ∈ i :: (pre' ++ [g, L])) a := by
        cases pre with
        | nil =>
          simp only [List.nil_append, List.cons.injEq] at har
          rw [← har.1]; exact .base (by simp)
        | cons a' pre =>
          simp only [List.cons_append, List.cons.injEq] at har
          rw [← har.1]
          have : a' ∈ d ++ pre' := by rw [← e1]; simp
          rcases List.mem_append.mp this with h | h
          · exact e5 _ h
          · exact .base (by simp [h])
      have hLS : Conv (fun p => p ∈ i :: (pre' ++ [g, L])) L := .base (by simp)
      have hiS : Conv (fun p => p ∈ i :: (pre' ++ [g, L])) i := .base (by simp)
      -- the tie case
      have tie : turn L a b = 0 → ∃ a' r', pre = a' :: r' ∧ a = a' ∧
          Conv (fun p => p ∈ i :: (pre' ++ [g, L])) b := by
        intro h0
        cases pre with
        | nil =>
          simp only [List.nil_append, List.cons.injEq] at har
          rw [← har.1] at h0
          exact absurd h0 (hg.str b (by simp)).ne'
        | cons a' pre =>
          simp only [List.cons_append, List.cons.injEq] at har
          obtain ⟨rfl, har⟩ := har
          obtain ⟨a0, r0, h00⟩ : ∃ a0 r0, pre ++ [g, L] = a0 :: r0 := by cases pre <;> simp
          have htt : 0 < turn a0 a' b := by
            have := hg.turns
            rw [List.cons_append, List.cons_append, h00] at this
            exact this.1
          have h0a : 0 ≤ turn L a0 a' := by
            cases pre with
            | nil =>
              simp only [List.nil_append, List.cons.injEq] at h00
              rw [← h00.1]; exact (hg.str a' (by simp)).le
            | cons a'' pre =>
              simp only [List.cons_append, List.cons.injEq] at h00
              rw [← h00.1]
              exact (List.pairwise_cons.mp (List.pairwise_cons.mp hg.ord).2).1 a'' (by simp)
          obtain ⟨m, m0, m1, ex, ey⟩ := nearer (hg.half a' (by simp)) (hg.half b (by simp)) h0 h0a htt
          exact ⟨a', pre, rfl, rfl, conv_of_multiple hLS haS m0.le m1.le ex ey⟩
      have hbS : Conv (fun p => p ∈ i :: (pre' ++ [g, L])) b := by
        by_cases h0 : turn L a b = 0
        · exact (tie h0).choose_spec.choose_spec.2.2
        · have habp : 0 < turn L a b := lt_of_le_of_ne hab (Ne.symm h0)
          rcases hi with hi | ⟨hi, _⟩
          · have ha : Half L a := by
              cases pre with
              | nil =>
                simp only [List.nil_append, List.cons.injEq] at har
                rw [← har.1]; exact hg.halfg
              | cons a' pre =>
                simp only [List.cons_append, List.cons.injEq] at har
                rw [← har.1]; exact hg.half a' (by simp)
            have hai : 0 ≤ turn L a i := by
              cases pre with
              | nil =>
                simp only [List.nil_append, List.cons.injEq] at har
                rw [← har.1]; exact (hs hi).le
              | cons a' pre =>
                simp only [List.cons_append, List.cons.injEq] at har
                rw [← har.1]; exact hx a' (by simp)
            have haip : 0 < turn L a i := by
              refine lt_of_le_of_ne hai fun h => ?_
              exact h0 (tie_zero ha (hg.half b (by simp)) hi hab hbi h.symm).1
            exact conv_triangle hLS haS hiS hab hbi haip (not_lt.mp ht)
          · exfalso; apply ht
            rw [hi]
            have e : turn a b L = turn L a b := by simp only [turn]; ring
            rw [e]; exact habp
      refine ⟨pre', b :: d, by rw [e1]; rfl, ?_, e3, ?_, ?_⟩
      · rw [List.cons_append, har, popPts, if_neg (by simpa [isleft] using ht), ← har]
        exact e2
      · intro hiL
        obtain ⟨top, r', ht1, ht2⟩ := e4 hiL
        refine ⟨top, r', ht1, ?_⟩
        intro x hxd
        rcases List.mem_cons.mp hxd with rfl | hxd
        · have h0 : turn L a x = 0 := by
            apply le_antisymm _ hab
            have e : turn a x L = turn L a x := by simp only [turn]; ring
            rw [← e, ← hiL]; exact not_lt.mp ht
          obtain ⟨a', r'', hp, haa, _⟩ := tie h0
          rw [hp, ht1] at e1
          have hha : Half L a := by rw [haa]; exact hg.half a' (by rw [hp]; simp)
          have hhx : Half L x := hg.half x (by simp)
          cases d with
          | nil =>
            simp only [List.nil_append, List.cons.injEq] at e1
            rw [← e1.1, ← haa]; exact h0
          | cons d0 d =>
            simp only [List.cons_append, List.cons.injEq] at e1
            have h1 := ht2 d0 (by simp)
            rw [← e1.1, ← haa] at h1
            have htop : Half L top := hg.half top (by rw [hp, e1.2]; simp)
            obtain ⟨m, _, mx, my⟩ := same_dir hha hhx h0
            have : turn L top x = m * turn L top a := by
              have bx : x.x = L.x + m * (a.x - L.x) := by linarith
              have byy : x.y = L.y + m * (a.y - L.y) := by linarith
              simp only [turn, bx, byy]; ring
            rw [this, h1, mul_zero]
        · exact ht2 x hxd
      · intro x hxd
        rcases List.mem_cons.mp hxd with rfl | hxd
        · exact hbS
        · exact e5 x hxd

end Karta.Vec.Hull
