import Verif.Vec.SweepInv

/-! Completeness of the sweep for segments in general position. -/

namespace Karta.Vec.Sweep
open Karta Karta.Vec

theorem pairwise_cases {T : CSeg → CSeg → Prop} {q : List CSeg} (h : q.Pairwise T) {s t : CSeg} (hs : s ∈ q) (ht : t ∈ q)
    (hne : s ≠ t) : T s t ∨ T t s := by
  induction q with
  | nil => cases hs
  | cons a q ih =>
    rw [List.pairwise_cons] at h
    rcases List.mem_cons.1 hs with rfl | hs
    · rcases List.mem_cons.1 ht with rfl | ht
      · exact absurd rfl hne
      · exact Or.inl (h.1 t ht)
    · rcases List.mem_cons.1 ht with h0 | ht
      · rw [h0]; exact Or.inr (h.1 s hs)
      · exact ih h.2 hs ht

/-- The sweep line is in order just after `x` and all neighbours of different colour passed the test. -/
structure Tested (x : ℚ) (q : List CSeg) : Prop where
  ord : q.Pairwise (Germ x)
  adj : ∀ p r, Adj q p r → p.color ≠ r.color → cIntersects p r = false

theorem Tested.order {S : List CSeg} {X : ℚ} (hG : General S X) {x : ℚ} {q : List CSeg} {bs : List (List Ev)} (h : At S x q bs)
    (ht : Tested x q) {x' : ℚ} (hx : x < x') (hX : x' ≤ X) (hhi : ∀ s ∈ q, x' ≤ s.hi) :
    q.Pairwise fun p r => height p x' ≤ height r x' ∧ (height p x' = height r x' → r.hi = x') := by
  apply pairwise_of_adj
  · rintro a b c ⟨h1, h2⟩ ⟨h3, h4⟩
    refine ⟨le_trans h1 h3, fun e => h4 ?_⟩
    exact le_antisymm h3 (e ▸ h1)
  · intro p r ha
    obtain ⟨hp, hr⟩ := adj_mem ha
    obtain ⟨p1, p2, p3, p4⟩ := (h.mem p).1 hp
    obtain ⟨r1, r2, r3, r4⟩ := (h.mem r).1 hr
    have hne : p ≠ r := adj_pairwise ha h.nodup
    have := step_order hG p1 r1 hne p2 r2 hx hX p3 r3 (hhi p hp) (hhi r hr) (adj_pairwise ha ht.ord) (ht.adj p r ha)
    exact ⟨this.1, fun e => (this.2 e).2⟩

theorem check_right {q : List CSeg} {A B : List CSeg} {p r : CSeg} (hq : q = A ++ p :: r :: B) (hn : q.Nodup) {e : Ev}
    {l m : Option CSeg} (hk : e.kind = 0) (hs : e.seg = p) (h : check q e l m = .ok false) : cIntersects p r = false := by
  have hnA : p ∉ A := by
    rw [hq] at hn
    intro hc
    exact (List.nodup_append.1 hn).2.2 p hc p (by simp) rfl
  have h1 : leftof q p = .ok A.getLast? := by rw [hq]; exact leftof_append hnA
  have h2 : rightof q p = .ok (some r) := by rw [hq]; exact rightof_append hnA
  rw [check, if_neg (by omega), if_pos hk, hs, h1, h2] at h
  simp only [Except.ok.injEq, Bool.or_eq_false_iff, Option.map_some, Option.getD_some] at h
  exact h.2

theorem check_left {q : List CSeg} {A B : List CSeg} {p r : CSeg} (hq : q = A ++ p :: r :: B) (hn : q.Nodup) {e : Ev}
    {l m : Option CSeg} (hk : e.kind = 0) (hs : e.seg = r) (h : check q e l m = .ok false) : cIntersects p r = false := by
  have hq' : q = (A ++ [p]) ++ r :: B := by rw [hq]; simp
  have hnA : r ∉ A ++ [p] := by
    rw [hq'] at hn
    intro hc
    exact (List.nodup_append.1 hn).2.2 r hc r (by simp) rfl
  have h1 : leftof q r = .ok (some p) := by rw [hq', leftof_append hnA]; simp
  have h2 : rightof q r = .ok B.head? := by rw [hq']; exact rightof_append hnA
  rw [check, if_neg (by omega), if_pos hk, hs, h1, h2] at h
  simp only [Except.ok.injEq, Bool.or_eq_false_iff, Option.map_some, Option.getD_some] at h
  exact h.1

theorem Tested.step {S : List CSeg} {X : ℚ} (hG : General S X) {x : ℚ} {q : List CSeg} {b : List Ev} {bs : List (List Ev)}
    (h : At S x q (b :: bs)) (ht : Tested x q) {x' : ℚ} (hx' : ∀ e ∈ b, e.x = x') (hX : x' ≤ X) {q' : List CSeg}
    {out : List (Ev × Option CSeg × Option CSeg)} (hq' : q' = (beginLoop b q).filter (fun s => s ∉ endingSegs b))
    (hfst : out.map Prod.fst = b) (hrec : ∀ o ∈ out, Recorded (endingSegs b) (beginLoop b q) o) (hat : At S x' q' bs)
    (hch : ∀ o ∈ out, check q' o.1 o.2.1 o.2.2 = .ok false) : Tested x' q' := by
  obtain ⟨hxx, h2, h3, h4, h5⟩ := h.next hx'
  have hmb := mem_beginSegs h hx'
  have hme := mem_endingSegs h hx'
  have hhi : ∀ s ∈ q, x' ≤ s.hi := by
    intro s hs
    obtain ⟨a1, a2, a3, a4⟩ := (h.mem s).1 hs
    rcases h2 s a1 ⟨s.hi, s, 1⟩ (by rw [evsOf_slanted a2]; simp) with h6 | h6
    · simp only at h6; linarith
    · exact h6
  have hord := ht.order hG h hxx hX hhi
  have hout : ∀ e ∈ b, ∃ l r, (e, l, r) ∈ out := by
    intro e he
    rw [← hfst] at he
    obtain ⟨⟨e', l, r⟩, ho, rfl⟩ := List.mem_map.1 he
    exact ⟨l, r, ho⟩
  constructor
  · have h6 : (beginLoop b q).Pairwise (InsOrd x') :=
      beginLoop_ord b hx' q (hord.imp fun {p r} hpr => ⟨hpr.1, fun hn e => absurd (hpr.2 e) hn⟩)
    rw [hq']
    apply List.Pairwise.imp_of_mem _ (h6.filter _)
    intro p r hp hr hpr
    rw [← hq'] at hr
    have hr' := (hat.mem r).1 hr
    rcases lt_or_eq_of_le hpr.1 with h7 | h7
    · exact Or.inl h7
    · exact Or.inr ⟨h7, hpr.2 hr'.2.2.2.ne' h7⟩
  · intro p r ⟨A, B, hadj⟩ hcol
    by_cases hpb : p ∈ beginSegs b
    · obtain ⟨e, he, hes⟩ := List.mem_map.1 hpb
      simp only [List.mem_filter, decide_eq_true_eq] at he
      obtain ⟨l, m, ho⟩ := hout e he.1
      exact check_right hadj hat.nodup he.2 hes (hch _ ho)
    by_cases hrb : r ∈ beginSegs b
    · obtain ⟨e, he, hes⟩ := List.mem_map.1 hrb
      simp only [List.mem_filter, decide_eq_true_eq] at he
      obtain ⟨l, m, ho⟩ := hout e he.1
      exact check_left hadj hat.nodup he.2 hes (hch _ ho)
    have hsp : (beginLoop b q).filter (fun s => s ∉ endingSegs b) = A ++ p :: r :: B := by rw [← hq', hadj]
    rw [List.filter_eq_append_iff] at hsp
    obtain ⟨l1, l2, e1, f1, f2⟩ := hsp
    rw [List.filter_eq_cons_iff] at f2
    obtain ⟨m1, m2, rfl, g1, g2, g3⟩ := f2
    rw [List.filter_eq_cons_iff] at g3
    obtain ⟨mid, R, rfl, k1, k2, k3⟩ := g3
    cases mid with
    | nil =>
      apply ht.adj p r _ hcol
      have hfq : q = (beginLoop b q).filter fun s => s ∉ beginSegs b := by
        rw [beginLoop_filter]
        · symm
          rw [List.filter_eq_self]
          intro s hs
          simp only [decide_eq_true_eq]
          rw [hmb]
          intro hc
          have := (h.mem s).1 hs
          linarith [hc.2.2, this.2.2.1]
        · intro s hs; simp [hs]
      rw [e1] at hfq
      refine ⟨(l1 ++ m1).filter fun s => s ∉ beginSegs b, R.filter fun s => s ∉ beginSegs b, ?_⟩
      conv_lhs => rw [hfq]
      simp [List.filter_append, List.filter_cons, hpb, hrb]
    | cons m mid =>
      have hm : m ∈ endingSegs b := by simpa using k1 m (by simp)
      obtain ⟨e, he, hes⟩ := List.mem_map.1 hm
      simp only [List.mem_filter, decide_eq_true_eq] at he
      obtain ⟨l, t, ho⟩ := hout e he.1
      have hR := hrec _ ho he.2 ((l1 ++ m1) ++ [p]) (mid ++ r :: R) (by rw [e1, hes]; simp)
      have hmid : mid.filter (fun s => s ∉ endingSegs b) = [] := by
        rw [List.filter_eq_nil_iff]
        intro s hs
        exact k1 s (by simp [hs])
      have hl : l = some p := by
        have := hR.1
        rw [List.filter_append, List.filter_cons, if_pos g2] at this
        simpa using this
      have hr : t = some r := by
        have := hR.2
        rw [List.filter_append, hmid, List.nil_append, List.filter_cons, if_pos k2] at this
        simpa using this
      have hc := hch _ ho
      rw [hl, hr] at hc
      simp only [check] at hc
      rw [if_neg (by omega), if_neg (by omega), if_pos he.2] at hc
      simpa using hc

theorem General.interior {S : List CSeg} {X : ℚ} (hG : General S X) {s t : CSeg} (hs : s ∈ S) (ht : t ∈ S) (hc : s.color ≠ t.color)
    (sl : t.Slanted) {p : Pt} (hX : p.x ≤ X) (h1 : s.seg.On p) (h2 : t.seg.On p) : t.lo < p.x ∧ p.x < t.hi := by
  have he := (hG.diff s hs t ht hc p hX h1 h2).2
  obtain ⟨a1, a2, -⟩ := (on_iff sl p).1 h2
  exact ⟨lt_of_le_of_ne a1 fun h => he (end_of_x sl h2 (Or.inl h.symm)), lt_of_le_of_ne a2 fun h => he (end_of_x sl h2 (Or.inr h))⟩

theorem sweep_complete {S : List CSeg} {X : ℚ} (hG : General S X) : ∀ (bs : List (List Ev)) (x : ℚ) (q : List CSeg), At S x q bs →
    Tested x q → sweep bs q = .ok false → ∀ s ∈ S, ∀ t ∈ S, s.Slanted → t.Slanted → s.color ≠ t.color →
    ∀ p : Pt, p.x ≤ X → s.seg.On p → t.seg.On p → p.x ≤ x := by
  intro bs
  induction bs with
  | nil =>
    intro x q h _ _ s hs t ht ss st hc p hX h1 h2
    have hi := (hG.interior hs ht hc st hX h1 h2).2
    rcases h.comes t ht ⟨t.hi, t, 1⟩ (by rw [evsOf_slanted st]; simp) with h3 | h3
    · simp only at h3; linarith
    · simp at h3
  | cons b bs ih =>
    intro x q h htst hsw s hs t ht ss st hc p hX h1 h2
    obtain ⟨hne, x', hx'⟩ := h.batched.1 b (by simp)
    obtain ⟨q', out, hq', hfst, hrec, hat, hstep⟩ := sweep_step h hx'
    rcases hstep with ⟨h3, -⟩ | ⟨h3, hch⟩
    · rw [h3] at hsw; cases hsw
    rw [h3] at hsw
    by_contra hcon
    push Not at hcon
    have hp : p.x ≤ x' := by
      by_contra hlt
      push Not at hlt
      exact absurd (ih x' q' hat (htst.step hG h hx' (by linarith) hq' hfst hrec hat hch) hsw s hs t ht ss st hc p hX h1 h2)
        (not_le.2 hlt)
    obtain ⟨hxx, h4, -⟩ := h.next hx'
    obtain ⟨t1, t2⟩ := hG.interior hs ht hc st hX h1 h2
    obtain ⟨s1, s2⟩ := hG.interior ht hs (Ne.symm hc) ss hX h2 h1
    have live : ∀ r ∈ S, r.Slanted → r.lo < p.x → p.x < r.hi → r ∈ q := by
      intro r hr sr r1 r2
      rw [h.mem]
      refine ⟨hr, sr, ?_, by linarith⟩
      rcases h4 r hr ⟨r.lo, r, 0⟩ (by rw [evsOf_slanted sr]; simp) with h5 | h5
      · exact h5
      · simp only at h5; linarith
    have hhi : ∀ r ∈ q, p.x ≤ r.hi := by
      intro r hr
      obtain ⟨a1, a2, a3, a4⟩ := (h.mem r).1 hr
      rcases h4 r a1 ⟨r.hi, r, 1⟩ (by rw [evsOf_slanted a2]; simp) with h5 | h5
      · simp only at h5; linarith
      · simp only at h5; linarith
    have hord := htst.order hG h hcon hX hhi
    have hst : s ≠ t := fun e => hc (by rw [e])
    have heq : height s p.x = height t p.x := by
      rw [← ((on_iff ss p).1 h1).2.2, ← ((on_iff st p).1 h2).2.2]
    rcases pairwise_cases hord (live s hs ss s1 s2) (live t ht st t1 t2) hst with h5 | h5
    · linarith [h5.2 heq]
    · linarith [h5.2 heq.symm]

/-- A vertical segment that meets a segment of the other geometry elsewhere than in its right end is found. -/
theorem sweep_vertical {S : List CSeg} : ∀ (bs : List (List Ev)) (x : ℚ) (q : List CSeg), At S x q bs →
    sweep bs q = .ok false → ∀ s ∈ S, ∀ t ∈ S, ¬ s.Slanted → t.Slanted → s.color ≠ t.color →
    ∀ p : Pt, s.seg.On p → t.seg.On p → p.x < t.hi → p.x ≤ x := by
  intro bs
  induction bs with
  | nil =>
    intro x q h _ s hs t ht ss st hc p h1 h2 hlt
    rcases h.comes t ht ⟨t.hi, t, 1⟩ (by rw [evsOf_slanted st]; simp) with h3 | h3
    · simp only at h3; linarith
    · simp at h3
  | cons b bs ih =>
    intro x q h hsw s hs t ht ss st hc p h1 h2 hlt
    obtain ⟨hne, x', hx'⟩ := h.batched.1 b (by simp)
    obtain ⟨q', out, hq', hfst, hrec, hat, hstep⟩ := sweep_step h hx'
    rcases hstep with ⟨h3, -⟩ | ⟨h3, hch⟩
    · rw [h3] at hsw; cases hsw
    rw [h3] at hsw
    have hp := ih x' q' hat hsw s hs t ht ss st hc p h1 h2 hlt
    obtain ⟨hxx, h4, -, h6, -⟩ := h.next hx'
    have hv : s.seg.a.x = s.seg.b.x := not_not.1 ss
    obtain ⟨u, u0, u1, ux, uy⟩ := h1
    have hpx : p.x = s.seg.a.x := by rw [ux, hv]; ring
    have hev : (⟨s.seg.a.x, s, 2⟩ : Ev) ∈ evsOf s := (mem_evsOf_vertical ss _).2 (Or.inl rfl)
    rcases h4 s hs _ hev with h7 | h7
    · rw [hpx]; exact h7
    · exfalso
      simp only at h7
      have hxe : s.seg.a.x = x' := le_antisymm (by rw [← hpx]; exact hp) h7
      have hb := h6 s hs _ hev hxe
      rw [← hfst] at hb
      obtain ⟨⟨e, l, r⟩, ho, he⟩ := List.mem_map.1 hb
      simp only at he
      have hck := hch _ ho
      simp only [he, check, if_true, Except.ok.injEq] at hck
      rw [List.any_eq_false] at hck
      obtain ⟨a1, a2, a3⟩ := (on_iff st p).1 h2
      have htq : t ∈ q' := (hat.mem t).2 ⟨ht, st, by rw [← hxe, ← hpx]; exact a1, by rw [← hxe, ← hpx]; exact hlt⟩
      apply hck t htq
      rw [verticalHit, if_neg hc]
      simp only [decide_eq_true_eq]
      rw [height_eq, slope_eq] at a3
      rw [← hpx, ← a3, uy]
      rcases le_total s.seg.a.y s.seg.b.y with hl | hl
      · left; constructor <;> nlinarith
      · right; constructor <;> nlinarith

theorem vertical_y {v : Seg} (hv : v.a.x = v.b.x) {p : Pt} (h : v.On p) :
    p.x = v.a.x ∧ ((v.a.y ≤ p.y ∧ p.y ≤ v.b.y) ∨ (v.b.y ≤ p.y ∧ p.y ≤ v.a.y)) := by
  obtain ⟨u, u0, u1, ux, uy⟩ := h
  refine ⟨by rw [ux, hv]; ring, ?_⟩
  rw [uy]
  rcases le_total v.a.y v.b.y with hl | hl
  · left; constructor <;> nlinarith
  · right; constructor <;> nlinarith

theorem General.not_both_vertical {S : List CSeg} {X : ℚ} (hG : General S X) {s t : CSeg} (hs : s ∈ S) (ht : t ∈ S)
    (hc : s.color ≠ t.color) (ss : ¬ s.Slanted) (st : ¬ t.Slanted) {p : Pt} (hX : p.x ≤ X) (h1 : s.seg.On p) (h2 : t.seg.On p) : False := by
  have hs' : s.seg.a.x = s.seg.b.x := not_not.1 ss
  have ht' : t.seg.a.x = t.seg.b.x := not_not.1 st
  obtain ⟨p1, p2⟩ := vertical_y hs' h1
  obtain ⟨r1, r2⟩ := vertical_y ht' h2
  have hab : s.seg.a.x = t.seg.a.x := by rw [← p1, ← r1]
  have onS : ∀ y, ((s.seg.a.y ≤ y ∧ y ≤ s.seg.b.y) ∨ (s.seg.b.y ≤ y ∧ y ≤ s.seg.a.y)) → s.seg.On ⟨s.seg.a.x, y⟩ :=
    fun y h => vertical_on hs' h
  have onT : ∀ y, ((t.seg.a.y ≤ y ∧ y ≤ t.seg.b.y) ∨ (t.seg.b.y ≤ y ∧ y ≤ t.seg.a.y)) → t.seg.On ⟨s.seg.a.x, y⟩ :=
    fun y h => by rw [hab]; exact vertical_on ht' h
  have eS1 : s.End ⟨s.seg.a.x, s.seg.a.y⟩ := Or.inl rfl
  have eS2 : s.End ⟨s.seg.a.x, s.seg.b.y⟩ := Or.inr (by rw [hs'])
  have eT1 : t.End ⟨s.seg.a.x, t.seg.a.y⟩ := Or.inl (by rw [hab])
  have eT2 : t.End ⟨s.seg.a.x, t.seg.b.y⟩ := Or.inr (by rw [hab, ht'])
  have noS : ∀ y, ((s.seg.a.y ≤ y ∧ y ≤ s.seg.b.y) ∨ (s.seg.b.y ≤ y ∧ y ≤ s.seg.a.y)) →
      ((t.seg.a.y ≤ y ∧ y ≤ t.seg.b.y) ∨ (t.seg.b.y ≤ y ∧ y ≤ t.seg.a.y)) →
      ¬ s.End ⟨s.seg.a.x, y⟩ ∧ ¬ t.End ⟨s.seg.a.x, y⟩ :=
    fun y a b => hG.diff s hs t ht hc _ (by simp only; rw [← p1]; exact hX) (onS y a) (onT y b)
  rcases p2 with p2 | p2 <;> rcases r2 with r2 | r2
  · rcases le_total s.seg.a.y t.seg.a.y with hl | hl
    · exact (noS t.seg.a.y (Or.inl ⟨hl, by linarith⟩) (Or.inl ⟨le_refl _, by linarith⟩)).2 eT1
    · exact (noS s.seg.a.y (Or.inl ⟨le_refl _, by linarith⟩) (Or.inl ⟨hl, by linarith⟩)).1 eS1
  · rcases le_total s.seg.a.y t.seg.b.y with hl | hl
    · exact (noS t.seg.b.y (Or.inl ⟨hl, by linarith⟩) (Or.inr ⟨le_refl _, by linarith⟩)).2 eT2
    · exact (noS s.seg.a.y (Or.inl ⟨le_refl _, by linarith⟩) (Or.inr ⟨hl, by linarith⟩)).1 eS1
  · rcases le_total s.seg.b.y t.seg.a.y with hl | hl
    · exact (noS t.seg.a.y (Or.inr ⟨hl, by linarith⟩) (Or.inl ⟨le_refl _, by linarith⟩)).2 eT1
    · exact (noS s.seg.b.y (Or.inr ⟨le_refl _, by linarith⟩) (Or.inl ⟨hl, by linarith⟩)).1 eS2
  · rcases le_total s.seg.b.y t.seg.b.y with hl | hl
    · exact (noS t.seg.b.y (Or.inr ⟨hl, by linarith⟩) (Or.inr ⟨le_refl _, by linarith⟩)).2 eT2
    · exact (noS s.seg.b.y (Or.inr ⟨le_refl _, by linarith⟩) (Or.inr ⟨hl, by linarith⟩)).1 eS2

/-! ### The beginning -/

theorem exists_below (l : List Ev) : ∃ x : ℚ, ∀ e ∈ l, x < e.x := by
  induction l with
  | nil => exact ⟨0, by simp⟩
  | cons a l ih =>
    obtain ⟨x, hx⟩ := ih
    refine ⟨min x (a.x - 1), ?_⟩
    intro e he
    rcases List.mem_cons.1 he with rfl | he
    · exact lt_of_le_of_lt (min_le_right _ _) (by linarith)
    · exact lt_of_le_of_lt (min_le_left _ _) (hx e he)

theorem flatMap_once (S : List CSeg) (h : (S.filter fun s => decide s.Slanted).Nodup) :
    ((S.flatMap evsOf).filter fun e => decide (e.kind < 2)).Nodup := by
  induction S with
  | nil => exact List.nodup_nil
  | cons s S ih =>
    rw [List.flatMap_cons, List.filter_append]
    by_cases hs : s.Slanted
    · rw [List.filter_cons, if_pos (by simpa using hs), List.nodup_cons] at h
      rw [List.nodup_append]
      refine ⟨?_, ih h.2, ?_⟩
      · rw [evsOf_slanted hs]; simp
      · rintro e he f hf rfl
        apply h.1
        simp only [List.mem_filter, List.mem_flatMap] at he hf
        obtain ⟨⟨t, ht, het⟩, -⟩ := hf
        have e1 := mem_evsOf he.1
        have e2 := mem_evsOf het
        simp only [List.mem_filter, decide_eq_true_eq]
        rw [← e1, e2]
        exact ⟨ht, by rw [← e2, e1]; exact hs⟩
    · rw [List.filter_cons, if_neg (by simpa using hs)] at h
      have : (evsOf s).filter (fun e => decide (e.kind < 2)) = [] := by
        rw [List.filter_eq_nil_iff]
        intro e he
        rcases (mem_evsOf_vertical hs e).1 he with rfl | rfl <;> simp
      rw [this, List.nil_append]
      exact ih h

theorem at_start (S : List CSeg) (h : (S.filter fun s => decide s.Slanted).Nodup) :
    ∃ x, (∀ e ∈ eventQueue S, x < e.x) ∧ At S x [] (batches (eventQueue S)) := by
  obtain ⟨x, hx⟩ := exists_below (eventQueue S)
  obtain ⟨hb, hf⟩ := batches_spec _ (eventQueue_sorted S)
  have hmem : ∀ s ∈ S, ∀ e ∈ evsOf s, e ∈ eventQueue S := fun s hs e he =>
    (eventQueue_perm S).mem_iff.2 (List.mem_flatMap.2 ⟨s, hs, he⟩)
  refine ⟨x, hx, hb, by rw [hf]; exact hx, ?_, ?_, ?_, List.nodup_nil, ?_⟩
  · intro s hs e he
    right
    rw [hf]
    exact hmem s hs e he
  · intro e he
    rw [hf, (eventQueue_perm S).mem_iff, List.mem_flatMap] at he
    obtain ⟨s, hs, he⟩ := he
    rw [mem_evsOf he]
    exact ⟨hs, he⟩
  · rw [hf, ((eventQueue_perm S).filter _).nodup_iff]
    exact flatMap_once S h
  · intro s
    simp only [List.not_mem_nil, false_iff]
    rintro ⟨h1, h2, h3, -⟩
    have := hx _ (hmem s h1 ⟨s.lo, s, 0⟩ (by rw [evsOf_slanted h2]; simp))
    simp only at this
    linarith

theorem contact_event {S : List CSeg} {s : CSeg} (hs : s ∈ S) {p : Pt} (h : s.seg.On p) : ∃ e ∈ eventQueue S, e.x ≤ p.x := by
  have hmem : ∀ e ∈ evsOf s, e ∈ eventQueue S := fun e he =>
    (eventQueue_perm S).mem_iff.2 (List.mem_flatMap.2 ⟨s, hs, he⟩)
  by_cases sl : s.Slanted
  · exact ⟨_, hmem ⟨s.lo, s, 0⟩ (by rw [evsOf_slanted sl]; simp), ((on_iff sl p).1 h).1⟩
  · exact ⟨_, hmem ⟨s.seg.a.x, s, 2⟩ ((mem_evsOf_vertical sl _).2 (Or.inl rfl)), (vertical_y (not_not.1 sl) h).1.ge⟩

end Karta.Vec.Sweep
