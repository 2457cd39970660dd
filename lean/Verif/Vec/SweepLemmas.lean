import Verif.Vec.Sweep
import Verif.Vec.PlanarProps
import Mathlib.Data.List.Nodup

/-! Lemmas about the sweep-line model. -/

namespace Karta.Vec.Sweep
open Karta Karta.Vec

/-! ### Neighbours -/

theorem leftof_append {P R : List CSeg} {s : CSeg} (h : s ∉ P) : leftof (P ++ s :: R) s = .ok P.getLast? := by
  have hi : (P ++ s :: R).idxOf s = P.length := by
    rw [List.idxOf_append_of_notMem h]; simp
  rw [leftof, if_pos (by simp), hi]
  congr 1
  by_cases h0 : P.length = 0
  · rw [if_pos h0, List.length_eq_zero_iff.1 h0]; rfl
  · rw [if_neg h0, List.getElem?_append_left (by omega), List.getLast?_eq_getElem?]

theorem rightof_append {P R : List CSeg} {s : CSeg} (h : s ∉ P) : rightof (P ++ s :: R) s = .ok R.head? := by
  have hi : (P ++ s :: R).idxOf s = P.length := by
    rw [List.idxOf_append_of_notMem h]; simp
  rw [rightof, if_pos (by simp), hi]
  congr 1
  simp only [List.length_append, List.length_cons]
  by_cases h0 : R = []
  · subst h0; simp
  · have : 0 < R.length := List.length_pos_iff.2 h0
    rw [if_neg (by omega), List.getElem?_append_right (by omega)]
    simp [List.head?_eq_getElem?]

theorem walk_left {q E : List CSeg} (hq : q.Nodup) : ∀ (P R : List CSeg) (fuel : Nat), q = P ++ R → P.length < fuel →
    walk (leftof q) E fuel P.getLast? = .ok ((P.filter fun s => s ∉ E).getLast?) := by
  intro P
  induction P using List.reverseRecOn with
  | nil =>
    intro R fuel _ hf
    obtain ⟨n, rfl⟩ : ∃ n, fuel = n + 1 := ⟨fuel - 1, by omega⟩
    rfl
  | append_singleton P t ih =>
    intro R fuel he hf
    rw [List.length_append, List.length_singleton] at hf
    obtain ⟨n, rfl⟩ : ∃ n, fuel = n + 1 := ⟨fuel - 1, by omega⟩
    rw [List.getLast?_concat]
    by_cases ht : t ∈ E
    · have hnp : t ∉ P := by
        rw [he, List.append_assoc] at hq
        intro hc
        exact (List.nodup_append.1 hq).2.2 t hc t (by simp) rfl
      have e2 : q = P ++ t :: R := by rw [he]; simp
      have hl : leftof q t = .ok P.getLast? := by rw [e2]; exact leftof_append hnp
      rw [walk, if_pos ht, hl]
      simp only [List.filter_append, List.filter_cons, ht, not_true_eq_false, decide_false, Bool.false_eq_true, if_false, List.filter_nil, List.append_nil]
      exact ih (t :: R) n e2 (by omega)
    · rw [walk, if_neg ht]
      simp [List.filter_append, ht]

theorem walk_right {q E : List CSeg} (hq : q.Nodup) : ∀ (R P : List CSeg) (fuel : Nat), q = P ++ R → R.length < fuel →
    walk (rightof q) E fuel R.head? = .ok ((R.filter fun s => s ∉ E).head?) := by
  intro R
  induction R with
  | nil =>
    intro R fuel _ hf
    obtain ⟨n, rfl⟩ : ∃ n, fuel = n + 1 := ⟨fuel - 1, by omega⟩
    rfl
  | cons t R ih =>
    intro P fuel he hf
    rw [List.length_cons] at hf
    obtain ⟨n, rfl⟩ : ∃ n, fuel = n + 1 := ⟨fuel - 1, by omega⟩
    rw [List.head?_cons]
    by_cases ht : t ∈ E
    · have hnp : t ∉ P := by
        rw [he] at hq
        intro hc
        exact (List.nodup_append.1 hq).2.2 t hc t (by simp) rfl
      have hl : rightof q t = .ok R.head? := by rw [he]; exact rightof_append hnp
      rw [walk, if_pos ht, hl]
      simp only [List.filter_cons, ht, not_true_eq_false, decide_false, Bool.false_eq_true, if_false]
      exact ih (P ++ [t]) n (by rw [he]; simp) (by omega)
    · rw [walk, if_neg ht]
      simp [ht]

theorem endingSegs_cons (e : Ev) (es : List Ev) :
    endingSegs (e :: es) = if e.kind = 1 then e.seg :: endingSegs es else endingSegs es := by
  by_cases h : e.kind = 1 <;> simp [endingSegs, h]

/-- The neighbours recorded for an ending event. -/
def Recorded (E q : List CSeg) (o : Ev × Option CSeg × Option CSeg) : Prop :=
  o.1.kind = 1 → ∀ P R, q = P ++ o.1.seg :: R →
    o.2.1 = (P.filter fun s => s ∉ E).getLast? ∧ o.2.2 = (R.filter fun s => s ∉ E).head?

theorem endLoop_spec (E : List CSeg) : ∀ (es : List Ev) (q : List CSeg), q.Nodup →
    (∀ s ∈ endingSegs es, s ∈ E ∧ s ∈ q) → (endingSegs es).Nodup →
    ∃ out, endLoop E es q = .ok (q.filter (fun s => s ∉ endingSegs es), out) ∧ out.map Prod.fst = es ∧
      ∀ o ∈ out, Recorded E q o := by
  intro es
  induction es with
  | nil => intro q _ _ _; exact ⟨[], by simp [endLoop, endingSegs], rfl, by simp⟩
  | cons e es ih =>
    intro q hq hm hn
    rw [endingSegs_cons] at hm hn ⊢
    by_cases hk : e.kind = 1
    · rw [if_pos hk] at hm hn ⊢
      obtain ⟨hE, hin⟩ := hm e.seg (by simp)
      obtain ⟨P, R, hPR⟩ := List.append_of_mem hin
      have hnP : e.seg ∉ P := by
        rw [hPR] at hq
        intro hc
        exact (List.nodup_append.1 hq).2.2 e.seg hc e.seg (by simp) rfl
      have hlen : q.length = P.length + R.length + 1 := by rw [hPR]; simp; omega
      have hl : walk (leftof q) E (q.length + 2) (some e.seg) = .ok ((P.filter fun s => s ∉ E).getLast?) := by
        have h1 : leftof q e.seg = .ok P.getLast? := by rw [hPR]; exact leftof_append hnP
        rw [show q.length + 2 = (q.length + 1) + 1 from rfl, walk, if_pos hE, h1]
        exact walk_left hq P (e.seg :: R) _ hPR (by omega)
      have hr : walk (rightof q) E (q.length + 2) (some e.seg) = .ok ((R.filter fun s => s ∉ E).head?) := by
        have h1 : rightof q e.seg = .ok R.head? := by rw [hPR]; exact rightof_append hnP
        rw [show q.length + 2 = (q.length + 1) + 1 from rfl, walk, if_pos hE, h1]
        exact walk_right hq R (P ++ [e.seg]) _ (by rw [hPR]; simp) (by omega)
      have her : q.erase e.seg = P ++ R := by
        rw [hPR, List.erase_append_right _ hnP]; simp
      rw [List.nodup_cons] at hn
      obtain ⟨out, ho, hfst, hrec⟩ := ih (q.erase e.seg) (hq.erase _)
        (fun s hs => ⟨(hm s (by simp [hs])).1, by
          rw [hq.mem_erase_iff]
          exact ⟨fun hc => hn.1 (hc ▸ hs), (hm s (by simp [hs])).2⟩⟩) hn.2
      refine ⟨(e, (P.filter fun s => s ∉ E).getLast?, (R.filter fun s => s ∉ E).head?) :: out, ?_, by simp [hfst], ?_⟩
      · rw [endLoop, if_pos hk, hl]
        simp only
        rw [hr]
        simp only
        rw [if_pos hin, ho]
        simp only
        congr 2
        rw [hq.erase_eq_filter, List.filter_filter]
        apply List.filter_congr
        intro s _
        by_cases h1 : s = e.seg <;> simp [h1]
      · intro o ho'
        rcases List.mem_cons.1 ho' with rfl | ho'
        · intro _ P' R' hPR'
          simp only at hPR' ⊢
          have hnP' : e.seg ∉ P' := by
            rw [hPR'] at hq
            intro hc
            exact (List.nodup_append.1 hq).2.2 e.seg hc e.seg (by simp) rfl
          have hPP : P = P' ∧ e.seg :: R = e.seg :: R' := by
            rw [hPR] at hPR'
            apply List.append_inj hPR'
            have i1 : (P ++ e.seg :: R).idxOf e.seg = P.length := by rw [List.idxOf_append_of_notMem hnP]; simp
            have i2 : (P' ++ e.seg :: R').idxOf e.seg = P'.length := by rw [List.idxOf_append_of_notMem hnP']; simp
            rw [← i1, hPR', i2]
          have hRR : R = R' := by injection hPP.2
          rw [hPP.1, hRR]
          exact ⟨rfl, rfl⟩
        · intro hk' P' R' hPR'
          have hes : o.1 ∈ es := by rw [← hfst]; exact List.mem_map_of_mem ho'
          have hne : o.1.seg ≠ e.seg := by
            intro hc
            apply hn.1
            rw [← hc]
            exact List.mem_map.2 ⟨o.1, by simp [hes, hk'], rfl⟩
          have key : ∀ L : List CSeg, ((L.erase e.seg).filter fun s => s ∉ E) = L.filter fun s => s ∉ E := by
            intro L
            induction L with
            | nil => rfl
            | cons a L ihL =>
              by_cases hae : a = e.seg
              · subst hae
                simp [hE]
              · rw [List.erase_cons_tail (by simpa using hae)]
                simp only [List.filter_cons, ihL]
          by_cases hp : e.seg ∈ P'
          · have hsp : q.erase e.seg = P'.erase e.seg ++ o.1.seg :: R' := by
              rw [hPR', List.erase_append_left _ hp]
            have := hrec o ho' hk' _ _ hsp
            rw [key] at this
            exact this
          · have hsp : q.erase e.seg = P' ++ o.1.seg :: R'.erase e.seg := by
              rw [hPR', List.erase_append_right _ hp, List.erase_cons_tail (by simpa using hne)]
            have := hrec o ho' hk' _ _ hsp
            rw [key] at this
            exact this
    · rw [if_neg hk] at hm hn ⊢
      obtain ⟨out, ho, hfst, hrec⟩ := ih q hq hm hn
      refine ⟨(e, none, none) :: out, ?_, by simp [hfst], ?_⟩
      · rw [endLoop, if_neg hk, ho]
      · intro o ho'
        rcases List.mem_cons.1 ho' with rfl | ho'
        · intro h; exact absurd h hk
        · exact hrec o ho'

/-! ### Geometry of segments -/

/-- The abscissae differ. -/
def CSeg.Slanted (s : CSeg) : Prop := s.seg.a.x ≠ s.seg.b.x

instance (s : CSeg) : Decidable s.Slanted := by unfold CSeg.Slanted; infer_instance

def CSeg.lo (s : CSeg) : ℚ := min s.seg.a.x s.seg.b.x
def CSeg.hi (s : CSeg) : ℚ := max s.seg.a.x s.seg.b.x

theorem lo_lt_hi {s : CSeg} (h : s.Slanted) : s.lo < s.hi := by
  unfold CSeg.lo CSeg.hi
  rcases lt_or_gt_of_ne h with h | h
  · rw [min_eq_left h.le, max_eq_right h.le]; exact h
  · rw [min_eq_right h.le, max_eq_left h.le]; exact h

theorem slope_eq (s : CSeg) : slope s = (s.seg.b.y - s.seg.a.y) / (s.seg.b.x - s.seg.a.x) := by
  unfold slope
  split
  · next h => rw [h]; simp
  · rfl

theorem height_eq (s : CSeg) (x : ℚ) : height s x = slope s * (x - s.seg.a.x) + s.seg.a.y := by
  rw [slope_eq]; unfold height
  split
  · next h => rw [h]; simp
  · rfl

theorem height_diff (s : CSeg) (x y : ℚ) : height s y = height s x + slope s * (y - x) := by
  rw [height_eq, height_eq]; ring

theorem slope_mul {s : CSeg} (h : s.Slanted) : slope s * (s.seg.b.x - s.seg.a.x) = s.seg.b.y - s.seg.a.y := by
  rw [slope_eq]
  exact div_mul_cancel₀ _ (sub_ne_zero.2 (Ne.symm h))

theorem on_iff {s : CSeg} (h : s.Slanted) (p : Pt) :
    s.seg.On p ↔ s.lo ≤ p.x ∧ p.x ≤ s.hi ∧ p.y = height s p.x := by
  have hm := slope_mul h
  unfold Seg.On CSeg.lo CSeg.hi
  constructor
  · rintro ⟨t, h0, h1, hx, hy⟩
    refine ⟨?_, ?_, ?_⟩
    · rw [hx]
      rcases le_total s.seg.a.x s.seg.b.x with hl | hl
      · rw [min_eq_left hl]; nlinarith
      · rw [min_eq_right hl]; nlinarith
    · rw [hx]
      rcases le_total s.seg.a.x s.seg.b.x with hl | hl
      · rw [max_eq_right hl]; nlinarith
      · rw [max_eq_left hl]; nlinarith
    · rw [height_eq, hx, hy]; linear_combination (-t) * hm
  · rintro ⟨h0, h1, hy⟩
    have hd : s.seg.b.x - s.seg.a.x ≠ 0 := sub_ne_zero.2 (Ne.symm h)
    refine ⟨(p.x - s.seg.a.x) / (s.seg.b.x - s.seg.a.x), ?_, ?_, ?_, ?_⟩
    · rcases lt_or_gt_of_ne h with hl | hl
      · rw [min_eq_left hl.le] at h0
        exact div_nonneg (by linarith) (by linarith)
      · rw [max_eq_left hl.le] at h1
        exact div_nonneg_of_nonpos (by linarith) (by linarith)
    · rcases lt_or_gt_of_ne h with hl | hl
      · rw [max_eq_right hl.le] at h1
        rw [div_le_one (by linarith)]; linarith
      · rw [min_eq_right hl.le] at h0
        rw [div_le_one_of_neg (by linarith)]; linarith
    · field_simp; ring
    · rw [hy, height_eq]
      rw [← hm]; field_simp; ring

theorem slanted_parallel {s r : CSeg} (hs : s.Slanted) (hr : r.Slanted) :
    s.seg.Parallel r.seg ↔ slope s = slope r := by
  have h1 := slope_mul hs
  have h2 := slope_mul hr
  have d1 : s.seg.b.x - s.seg.a.x ≠ 0 := sub_ne_zero.2 (Ne.symm hs)
  have d2 : r.seg.b.x - r.seg.a.x ≠ 0 := sub_ne_zero.2 (Ne.symm hr)
  unfold Seg.Parallel
  rw [← h1, ← h2]
  constructor
  · intro h
    have : (s.seg.b.x - s.seg.a.x) * (r.seg.b.x - r.seg.a.x) * (slope s - slope r) = 0 := by linear_combination -h
    rcases mul_eq_zero.1 this with h' | h'
    · exact absurd h' (mul_ne_zero d1 d2)
    · linarith
  · intro h; rw [h]; ring

/-- The point is an end point of the segment. -/
def CSeg.End (s : CSeg) (p : Pt) : Prop := p = s.seg.a ∨ p = s.seg.b

theorem end_x {s : CSeg} {p : Pt} (h : s.End p) : p.x = s.lo ∨ p.x = s.hi := by
  unfold CSeg.lo CSeg.hi
  rcases le_total s.seg.a.x s.seg.b.x with hl | hl
  · rw [min_eq_left hl, max_eq_right hl]; rcases h with rfl | rfl <;> simp
  · rw [min_eq_right hl, max_eq_left hl]; rcases h with rfl | rfl <;> simp

theorem end_of_x {s : CSeg} (hs : s.Slanted) {p : Pt} (hp : s.seg.On p) (h : p.x = s.lo ∨ p.x = s.hi) : s.End p := by
  have hy := ((on_iff hs p).1 hp).2.2
  have hm := slope_mul hs
  have key : p.x = s.seg.a.x ∨ p.x = s.seg.b.x := by
    unfold CSeg.lo CSeg.hi at h
    rcases le_total s.seg.a.x s.seg.b.x with hl | hl
    · rwa [min_eq_left hl, max_eq_right hl] at h
    · rw [min_eq_right hl, max_eq_left hl] at h; exact h.symm
  obtain ⟨px, py⟩ := p
  simp only at key hy
  unfold CSeg.End
  rcases key with rfl | rfl
  · left
    rw [hy, height_eq]; simp
  · right
    rw [hy, height_eq, hm]; simp

/-- What is assumed of a set of coloured segments: up to the abscissa `X`, segments of one geometry meet in
end points of both only, segments of different geometries do not meet in an end point. -/
structure General (S : List CSeg) (X : ℚ) : Prop where
  same : ∀ s ∈ S, ∀ t ∈ S, s ≠ t → s.color = t.color → ∀ p, p.x ≤ X → s.seg.On p → t.seg.On p → s.End p ∧ t.End p
  diff : ∀ s ∈ S, ∀ t ∈ S, s.color ≠ t.color → ∀ p, p.x ≤ X → s.seg.On p → t.seg.On p → ¬ s.End p ∧ ¬ t.End p

/-- Order of two segments just to the right of `x`. -/
def Germ (x : ℚ) (p r : CSeg) : Prop := height p x < height r x ∨ (height p x = height r x ∧ slope p ≤ slope r)

theorem cIntersects_of {p r : CSeg} (hc : p.color ≠ r.color) {z : Pt} (h : ¬ p.seg.Parallel r.seg) (h1 : p.seg.On z)
    (h2 : r.seg.On z) (e1 : ¬ p.End z) (e2 : ¬ r.End z) : cIntersects p r = true := by
  have hi : intersection p.seg r.seg = some z :=
    (C34_intersection_exact _ _ _).2 ⟨h, h1, h2, fun h => e1 (Or.inl h), fun h => e2 (Or.inl h)⟩
  rw [cIntersects, if_neg hc, segIntersects, hi]
  simp

/-- Two neighbouring segments that passed the test do not change order before `x'`, and meet at `x'` only if
both end there. -/
theorem step_order {S : List CSeg} {X : ℚ} (hG : General S X) {p r : CSeg} (hp : p ∈ S) (hr : r ∈ S) (hne : p ≠ r)
    (sp : p.Slanted) (sr : r.Slanted) {x x' : ℚ} (hx : x < x') (hX : x' ≤ X) (hlp : p.lo ≤ x) (hlr : r.lo ≤ x) (hhp : x' ≤ p.hi)
    (hhr : x' ≤ r.hi) (hg : Germ x p r) (ht : p.color ≠ r.color → cIntersects p r = false) :
    height p x' ≤ height r x' ∧ (height p x' = height r x' → p.hi = x' ∧ r.hi = x') := by
  by_contra hcon
  have hge : height r x' ≤ height p x' := by
    by_contra hc
    push Not at hc
    exact hcon ⟨hc.le, fun h => absurd h hc.ne⟩
  have dp := height_diff p x x'
  have dr := height_diff r x x'
  by_cases hm : slope p = slope r
  · have heq : height p x = height r x := by
      rcases hg with h | h
      · rw [hm] at dp; linarith
      · exact h.1
    have hall : ∀ z, height p z = height r z := by
      intro z
      rw [height_diff p x z, height_diff r x z, heq, hm]
    by_cases hc : p.color = r.color
    · have hpo : p.seg.On ⟨(x + x') / 2, height p ((x + x') / 2)⟩ := by
        rw [on_iff sp]; exact ⟨by linarith, by linarith, rfl⟩
      have hro : r.seg.On ⟨(x + x') / 2, height p ((x + x') / 2)⟩ := by
        rw [on_iff sr]; exact ⟨by linarith, by linarith, hall _⟩
      have := end_x (hG.same p hp r hr hne hc _ (by simp only; linarith) hpo hro).1
      rcases this with h | h <;> simp only at h <;> linarith
    · rcases le_total p.lo r.lo with hl | hl
      · have hpo : p.seg.On ⟨r.lo, height p r.lo⟩ := by
          rw [on_iff sp]; exact ⟨hl, by linarith, rfl⟩
        have hro : r.seg.On ⟨r.lo, height p r.lo⟩ := by
          rw [on_iff sr]; exact ⟨le_refl _, (lo_lt_hi sr).le, hall _⟩
        exact (hG.diff p hp r hr hc _ (by simp only; linarith) hpo hro).2 (end_of_x sr hro (Or.inl rfl))
      · have hpo : p.seg.On ⟨p.lo, height p p.lo⟩ := by
          rw [on_iff sp]; exact ⟨le_refl _, (lo_lt_hi sp).le, rfl⟩
        have hro : r.seg.On ⟨p.lo, height p p.lo⟩ := by
          rw [on_iff sr]; exact ⟨hl, by linarith, hall _⟩
        exact (hG.diff p hp r hr hc _ (by simp only; linarith) hpo hro).1 (end_of_x sp hpo (Or.inl rfl))
  · have hlt : height p x < height r x := by
      rcases hg with h | ⟨h1, h2⟩
      · exact h
      · have : slope p < slope r := lt_of_le_of_ne h2 hm
        nlinarith
    have hmp : slope r < slope p := by
      by_contra hc
      push Not at hc
      nlinarith
    have hd : 0 < slope p - slope r := by linarith
    obtain ⟨z, hz⟩ : ∃ z, z = x + (height r x - height p x) / (slope p - slope r) := ⟨_, rfl⟩
    have hzm : (z - x) * (slope p - slope r) = height r x - height p x := by
      rw [hz, add_sub_cancel_left]; exact div_mul_cancel₀ _ hd.ne'
    have hz1 : x < z := by
      have : 0 < (height r x - height p x) / (slope p - slope r) := div_pos (by linarith) hd
      linarith
    have hz2 : z ≤ x' := by
      by_contra hc
      push Not at hc
      nlinarith
    have hpz : height p z = height r z := by
      rw [height_diff p x z, height_diff r x z]; linarith
    have hpo : p.seg.On ⟨z, height p z⟩ := by
      rw [on_iff sp]; exact ⟨by linarith, by linarith, rfl⟩
    have hro : r.seg.On ⟨z, height p z⟩ := by
      rw [on_iff sr]; exact ⟨by linarith, by linarith, hpz⟩
    by_cases hc : p.color = r.color
    · obtain ⟨e1, e2⟩ := hG.same p hp r hr hne hc _ (by simp only; linarith) hpo hro
      have f1 : z = p.hi := by rcases end_x e1 with h | h <;> simp only at h <;> linarith
      have f2 : z = r.hi := by rcases end_x e2 with h | h <;> simp only at h <;> linarith
      have hzx : z = x' := by linarith
      apply hcon
      rw [← hzx]
      exact ⟨hpz.le, fun _ => ⟨f1.symm, f2.symm⟩⟩
    · obtain ⟨e1, e2⟩ := hG.diff p hp r hr hc _ (by simp only; linarith) hpo hro
      have := cIntersects_of hc (fun h => hm ((slanted_parallel sp sr).1 h)) hpo hro e1 e2
      rw [ht hc] at this
      cases this

/-! ### Order on the sweep line -/

/-- `p` and `r` are neighbours. -/
def Adj (q : List CSeg) (p r : CSeg) : Prop := ∃ A B, q = A ++ p :: r :: B

theorem pairwise_of_adj {T : CSeg → CSeg → Prop} (htr : ∀ a b c, T a b → T b c → T a c) :
    ∀ q : List CSeg, (∀ p r, Adj q p r → T p r) → q.Pairwise T := by
  intro q
  induction q with
  | nil => intro _; exact List.Pairwise.nil
  | cons a q ih =>
    intro h
    have hq := ih fun p r ⟨A, B, e⟩ => h p r ⟨a :: A, B, by rw [e]; rfl⟩
    refine List.pairwise_cons.2 ⟨?_, hq⟩
    cases q with
    | nil => simp
    | cons b q =>
      have hab := h a b ⟨[], q, rfl⟩
      intro c hc
      rcases List.mem_cons.1 hc with rfl | hc
      · exact hab
      · exact htr _ _ _ hab ((List.pairwise_cons.1 hq).1 c hc)

theorem adj_mem {q : List CSeg} {p r : CSeg} (h : Adj q p r) : p ∈ q ∧ r ∈ q := by
  obtain ⟨A, B, rfl⟩ := h
  simp

theorem adj_pairwise {T : CSeg → CSeg → Prop} {q : List CSeg} {p r : CSeg} (h : Adj q p r) (hq : q.Pairwise T) : T p r := by
  obtain ⟨A, B, rfl⟩ := h
  rw [List.pairwise_append, List.pairwise_cons] at hq
  exact hq.2.1.1 r (by simp)

/-- The order kept while segments are inserted at `x`. -/
def InsOrd (x : ℚ) (p r : CSeg) : Prop :=
  height p x ≤ height r x ∧ (r.hi ≠ x → height p x = height r x → slope p ≤ slope r)

theorem sweepInsert_perm (x : ℚ) (s : CSeg) (q : List CSeg) : (sweepInsert x s q).Perm (s :: q) := by
  induction q with
  | nil => exact List.Perm.refl _
  | cons a q ih =>
    rw [sweepInsert]
    split
    · exact (ih.cons a).trans (List.Perm.swap _ _ _)
    · exact List.Perm.refl _

theorem sweepInsert_filter (x : ℚ) (s : CSeg) (f : CSeg → Bool) (hf : f s = false) (q : List CSeg) :
    (sweepInsert x s q).filter f = q.filter f := by
  induction q with
  | nil => simp [sweepInsert, hf]
  | cons a q ih =>
    rw [sweepInsert]
    split
    · rw [List.filter_cons, List.filter_cons, ih]
    · rw [List.filter_cons, hf]; simp

theorem sweepInsert_ord {x : ℚ} {s : CSeg} {q : List CSeg} (h : q.Pairwise (InsOrd x)) :
    (sweepInsert x s q).Pairwise (InsOrd x) := by
  induction q with
  | nil => simp [sweepInsert]
  | cons a q ih =>
    rw [List.pairwise_cons] at h
    rw [sweepInsert]
    split
    · next hc =>
      refine List.pairwise_cons.2 ⟨?_, ih h.2⟩
      intro c hcm
      rcases List.mem_cons.1 ((sweepInsert_perm x s q).mem_iff.1 hcm) with rfl | hcm
      · rcases hc with hc | hc
        · exact ⟨hc.le, fun _ e => absurd e hc.ne⟩
        · exact ⟨hc.1.le, fun _ _ => hc.2.le⟩
      · exact h.1 c hcm
    · next hc =>
      push Not at hc
      have hsa : InsOrd x s a := ⟨hc.1, fun _ e => hc.2 e.symm⟩
      refine List.pairwise_cons.2 ⟨?_, List.pairwise_cons.2 h⟩
      intro c hcm
      rcases List.mem_cons.1 hcm with rfl | hcm
      · exact hsa
      · have hac := h.1 c hcm
        refine ⟨le_trans hsa.1 hac.1, fun hn e => ?_⟩
        have e1 : height a x = height s x := le_antisymm (e ▸ hac.1) hc.1
        exact le_trans (hc.2 e1) (hac.2 hn (by rw [e1, e]))

/-- Segments that begin with these events. -/
def beginSegs (evs : List Ev) : List CSeg := (evs.filter fun e => e.kind = 0).map Ev.seg

theorem beginLoop_cons (e : Ev) (es : List Ev) (q : List CSeg) :
    beginLoop (e :: es) q = beginLoop es (if e.kind = 0 then sweepInsert e.x e.seg q else q) := rfl

theorem beginSegs_cons (e : Ev) (es : List Ev) :
    beginSegs (e :: es) = if e.kind = 0 then e.seg :: beginSegs es else beginSegs es := by
  by_cases h : e.kind = 0 <;> simp [beginSegs, h]

theorem beginLoop_perm (evs : List Ev) (q : List CSeg) : (beginLoop evs q).Perm (beginSegs evs ++ q) := by
  induction evs generalizing q with
  | nil => exact List.Perm.refl _
  | cons e es ih =>
    rw [beginLoop_cons, beginSegs_cons]
    split
    · exact (ih _).trans (((sweepInsert_perm _ _ _).append_left _).trans List.perm_middle)
    · exact ih q

theorem beginLoop_filter (f : CSeg → Bool) (evs : List Ev) (hf : ∀ s ∈ beginSegs evs, f s = false) (q : List CSeg) :
    (beginLoop evs q).filter f = q.filter f := by
  induction evs generalizing q with
  | nil => rfl
  | cons e es ih =>
    rw [beginLoop_cons]
    rw [beginSegs_cons] at hf
    by_cases h : e.kind = 0
    · rw [if_pos h] at hf ⊢
      rw [ih (fun s hs => hf s (by simp [hs])), sweepInsert_filter _ _ _ (hf _ (by simp))]
    · rw [if_neg h] at hf ⊢
      exact ih hf q

theorem beginLoop_ord {x : ℚ} (evs : List Ev) (hx : ∀ e ∈ evs, e.x = x) (q : List CSeg) (h : q.Pairwise (InsOrd x)) :
    (beginLoop evs q).Pairwise (InsOrd x) := by
  induction evs generalizing q with
  | nil => exact h
  | cons e es ih =>
    rw [beginLoop_cons]
    apply ih (fun f hf => hx f (by simp [hf]))
    split
    · rw [hx e (by simp)]; exact sweepInsert_ord h
    · exact h

end Karta.Vec.Sweep
