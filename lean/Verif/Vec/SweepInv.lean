import Verif.Vec.SweepLemmas

/-! The invariant of the sweep. -/

namespace Karta.Vec.Sweep
open Karta Karta.Vec

/-! ### Events -/

theorem evsOf_slanted {s : CSeg} (h : s.Slanted) : evsOf s = [⟨s.lo, s, 0⟩, ⟨s.hi, s, 1⟩] := by
  unfold evsOf CSeg.lo CSeg.hi
  rw [if_neg h]
  rcases lt_or_gt_of_ne h with hl | hl
  · rw [if_pos hl, min_eq_left hl.le, max_eq_right hl.le]
  · rw [if_neg (not_lt.2 hl.le), min_eq_right hl.le, max_eq_left hl.le]

theorem mem_evsOf_vertical {s : CSeg} (h : ¬ s.Slanted) (e : Ev) :
    e ∈ evsOf s ↔ e = ⟨s.seg.a.x, s, 2⟩ ∨ e = ⟨s.seg.a.x, s, 3⟩ := by
  have h' : s.seg.a.x = s.seg.b.x := not_not.1 h
  unfold evsOf
  rw [if_pos h']
  split
  · simp
  · simp [or_comm]

theorem mem_evsOf {s : CSeg} {e : Ev} (h : e ∈ evsOf s) : e.seg = s := by
  by_cases hs : s.Slanted
  · rw [evsOf_slanted hs] at h
    simp only [List.mem_cons, List.not_mem_nil, or_false] at h
    rcases h with rfl | rfl <;> rfl
  · rcases (mem_evsOf_vertical hs e).1 h with rfl | rfl <;> rfl

theorem evInsert_perm (e : Ev) (l : List Ev) : (evInsert e l).Perm (e :: l) := by
  induction l with
  | nil => exact List.Perm.refl _
  | cons f l ih =>
    rw [evInsert]
    split
    · exact List.Perm.refl _
    · exact (ih.cons f).trans (List.Perm.swap _ _ _)

theorem key_lt_x {e f : Ev} (h : e.key < f.key) : e.x ≤ f.x := by
  unfold Ev.key at h
  rw [List.cons_lt_cons_iff] at h
  rcases h with h | ⟨h, _⟩
  · exact h.le
  · exact h.le

theorem key_not_lt_x {e f : Ev} (h : ¬ e.key < f.key) : f.x ≤ e.x := by
  by_contra hc
  push Not at hc
  apply h
  unfold Ev.key
  rw [List.cons_lt_cons_iff]
  exact Or.inl hc

theorem evInsert_sorted (e : Ev) (l : List Ev) (h : l.Pairwise fun a b => a.x ≤ b.x) :
    (evInsert e l).Pairwise fun a b => a.x ≤ b.x := by
  induction l with
  | nil => simp [evInsert]
  | cons f l ih =>
    rw [List.pairwise_cons] at h
    rw [evInsert]
    split
    · next hk =>
      have := key_lt_x hk
      refine List.pairwise_cons.2 ⟨?_, List.pairwise_cons.2 h⟩
      intro c hc
      rcases List.mem_cons.1 hc with rfl | hc
      · exact this
      · exact le_trans this (h.1 c hc)
    · next hk =>
      refine List.pairwise_cons.2 ⟨?_, ih h.2⟩
      intro c hc
      rcases List.mem_cons.1 ((evInsert_perm e l).mem_iff.1 hc) with rfl | hc
      · exact key_not_lt_x hk
      · exact h.1 c hc

theorem foldl_evInsert (l q : List Ev) (h : q.Pairwise fun a b => a.x ≤ b.x) :
    (l.foldl (fun q (e : Ev) => evInsert e q) q).Perm (l ++ q) ∧
    (l.foldl (fun q (e : Ev) => evInsert e q) q).Pairwise fun a b => a.x ≤ b.x := by
  induction l generalizing q with
  | nil => exact ⟨List.Perm.refl _, h⟩
  | cons e l ih =>
    obtain ⟨h1, h2⟩ := ih (evInsert e q) (evInsert_sorted e q h)
    exact ⟨h1.trans (((evInsert_perm e q).append_left l).trans List.perm_middle), h2⟩

theorem eventQueue_perm (S : List CSeg) : (eventQueue S).Perm (S.flatMap evsOf) := by
  have := (foldl_evInsert (S.flatMap evsOf) [] List.Pairwise.nil).1
  rwa [List.append_nil] at this

theorem eventQueue_sorted (S : List CSeg) : (eventQueue S).Pairwise fun a b => a.x ≤ b.x :=
  (foldl_evInsert (S.flatMap evsOf) [] List.Pairwise.nil).2

/-- Batches are non-empty groups of simultaneous events, in increasing order. -/
def Batched (bs : List (List Ev)) : Prop :=
  (∀ b ∈ bs, b ≠ [] ∧ ∃ x, ∀ e ∈ b, e.x = x) ∧ bs.Pairwise fun b c => ∀ e ∈ b, ∀ f ∈ c, e.x < f.x

theorem batches_spec : ∀ l : List Ev, (l.Pairwise fun a b => a.x ≤ b.x) →
    Batched (batches l) ∧ (batches l).flatten = l := by
  intro l
  induction l with
  | nil => intro _; exact ⟨⟨by simp [batches], List.Pairwise.nil⟩, rfl⟩
  | cons e l ih =>
    intro h
    rw [List.pairwise_cons] at h
    obtain ⟨⟨h1, h2⟩, h3⟩ := ih h.2
    rw [batches]
    cases hb : batches l with
    | nil =>
      rw [hb] at h3
      simp only [List.flatten_nil] at h3
      subst h3
      exact ⟨⟨by simp, by simp⟩, by simp⟩
    | cons c rest =>
      rw [hb] at h1 h2 h3
      cases c with
      | nil => exact absurd rfl (h1 [] (by simp)).1
      | cons f b =>
        have hfl : ∀ g ∈ (((f :: b) :: rest).flatten), e.x ≤ g.x := fun g hg => h.1 g (by rw [← h3]; exact hg)
        obtain ⟨-, x0, hx0⟩ := h1 (f :: b) (by simp)
        have hfx := hx0 f (by simp)
        rw [List.pairwise_cons] at h2
        by_cases hx : e.x = f.x
        · simp only [if_pos hx]
          refine ⟨⟨?_, ?_⟩, ?_⟩
          · intro c hc
            rcases List.mem_cons.1 hc with rfl | hc
            · refine ⟨by simp, x0, ?_⟩
              intro g hg
              rcases List.mem_cons.1 hg with rfl | hg
              · rw [hx, hfx]
              · exact hx0 g hg
            · exact h1 c (by simp [hc])
          · refine List.pairwise_cons.2 ⟨?_, h2.2⟩
            intro c hc g hg k hk
            rcases List.mem_cons.1 hg with rfl | hg
            · rw [hx]; exact h2.1 c hc f (by simp) k hk
            · exact h2.1 c hc g hg k hk
          · rw [← h3]; rfl
        · simp only [if_neg hx]
          have hlt : e.x < f.x := lt_of_le_of_ne (hfl f (by simp)) hx
          refine ⟨⟨?_, ?_⟩, ?_⟩
          · intro c hc
            rcases List.mem_cons.1 hc with rfl | hc
            · exact ⟨by simp, e.x, by simp⟩
            · exact h1 c hc
          · refine List.pairwise_cons.2 ⟨?_, List.pairwise_cons.2 h2⟩
            intro c hc g hg k hk
            rw [List.mem_singleton.1 hg]
            rcases List.mem_cons.1 hc with rfl | hc
            · rw [hx0 k hk, ← hfx]; exact hlt
            · exact lt_trans hlt (h2.1 c hc f (by simp) k hk)
          · rw [← h3]; rfl

/-! ### The invariant -/

/-- Where the sweep stands after all events up to `x`: `q` holds the segments across `x`, `bs` the later
events. -/
structure At (S : List CSeg) (x : ℚ) (q : List CSeg) (bs : List (List Ev)) : Prop where
  batched : Batched bs
  later : ∀ e ∈ bs.flatten, x < e.x
  comes : ∀ s ∈ S, ∀ e ∈ evsOf s, e.x ≤ x ∨ e ∈ bs.flatten
  from' : ∀ e ∈ bs.flatten, e.seg ∈ S ∧ e ∈ evsOf e.seg
  once : (bs.flatten.filter fun e => decide (e.kind < 2)).Nodup
  nodup : q.Nodup
  mem : ∀ s, s ∈ q ↔ s ∈ S ∧ s.Slanted ∧ s.lo ≤ x ∧ x < s.hi

theorem At.next {S : List CSeg} {x : ℚ} {q : List CSeg} {b : List Ev} {bs : List (List Ev)} (h : At S x q (b :: bs))
    {x' : ℚ} (hx' : ∀ e ∈ b, e.x = x') : x < x' ∧ (∀ s ∈ S, ∀ e ∈ evsOf s, e.x ≤ x ∨ x' ≤ e.x) ∧
      (∀ e ∈ b, e.seg ∈ S ∧ e ∈ evsOf e.seg) ∧ (∀ s ∈ S, ∀ e ∈ evsOf s, e.x = x' → e ∈ b) ∧
      ∀ s ∈ S, ∀ e ∈ evsOf s, e.x ≤ x' ∨ e ∈ bs.flatten := by
  obtain ⟨hb1, hb2⟩ := h.batched
  rw [List.pairwise_cons] at hb2
  obtain ⟨hne, -⟩ := hb1 b (by simp)
  obtain ⟨e0, he0⟩ := List.exists_mem_of_ne_nil b hne
  have hxx : x < x' := by rw [← hx' e0 he0]; exact h.later e0 (by simp [he0])
  have hcase : ∀ e, e ∈ (b :: bs).flatten → e ∈ b ∨ (e ∈ bs.flatten ∧ x' < e.x) := by
    intro e he
    rw [List.flatten_cons, List.mem_append] at he
    rcases he with he | he
    · exact Or.inl he
    · right
      refine ⟨he, ?_⟩
      obtain ⟨c, hc, hec⟩ := List.mem_flatten.1 he
      rw [← hx' e0 he0]
      exact hb2.1 c hc e0 he0 e hec
  refine ⟨hxx, ?_, ?_, ?_, ?_⟩
  · intro s hs e he
    rcases h.comes s hs e he with h1 | h1
    · exact Or.inl h1
    · rcases hcase e h1 with h2 | h2
      · exact Or.inr (hx' e h2).ge
      · exact Or.inr h2.2.le
  · intro e he; exact h.from' e (by simp [he])
  · intro s hs e he hex
    rcases h.comes s hs e he with h1 | h1
    · rw [hex] at h1; exact absurd h1 (not_le.2 hxx)
    · rcases hcase e h1 with h2 | h2
      · exact h2
      · rw [hex] at h2; exact absurd h2.2 (lt_irrefl _)
  · intro s hs e he
    rcases h.comes s hs e he with h1 | h1
    · exact Or.inl (le_trans h1 hxx.le)
    · rcases hcase e h1 with h2 | h2
      · exact Or.inl (hx' e h2).le
      · exact Or.inr h2.1

theorem mem_beginSegs {S : List CSeg} {x : ℚ} {q : List CSeg} {b : List Ev} {bs : List (List Ev)} (h : At S x q (b :: bs))
    {x' : ℚ} (hx' : ∀ e ∈ b, e.x = x') (s : CSeg) : s ∈ beginSegs b ↔ s ∈ S ∧ s.Slanted ∧ s.lo = x' := by
  obtain ⟨-, -, h3, h4, -⟩ := h.next hx'
  unfold beginSegs
  simp only [List.mem_map, List.mem_filter, decide_eq_true_eq]
  constructor
  · rintro ⟨e, ⟨he, hk⟩, rfl⟩
    obtain ⟨h5, h6⟩ := h3 e he
    have hsl : e.seg.Slanted := by
      by_contra hc
      rcases (mem_evsOf_vertical hc e).1 h6 with h7 | h7 <;> rw [h7] at hk <;> cases hk
    rw [evsOf_slanted hsl] at h6
    simp only [List.mem_cons, List.not_mem_nil, or_false] at h6
    refine ⟨h5, hsl, ?_⟩
    rcases h6 with h7 | h7
    · rw [← hx' e he, h7]
    · rw [h7] at hk; cases hk
  · rintro ⟨hs, hsl, hlo⟩
    exact ⟨⟨s.lo, s, 0⟩, ⟨h4 s hs _ (by rw [evsOf_slanted hsl]; simp) hlo, rfl⟩, rfl⟩

theorem mem_endingSegs {S : List CSeg} {x : ℚ} {q : List CSeg} {b : List Ev} {bs : List (List Ev)} (h : At S x q (b :: bs))
    {x' : ℚ} (hx' : ∀ e ∈ b, e.x = x') (s : CSeg) : s ∈ endingSegs b ↔ s ∈ S ∧ s.Slanted ∧ s.hi = x' := by
  obtain ⟨-, -, h3, h4, -⟩ := h.next hx'
  unfold endingSegs
  simp only [List.mem_map, List.mem_filter, decide_eq_true_eq]
  constructor
  · rintro ⟨e, ⟨he, hk⟩, rfl⟩
    obtain ⟨h5, h6⟩ := h3 e he
    have hsl : e.seg.Slanted := by
      by_contra hc
      rcases (mem_evsOf_vertical hc e).1 h6 with h7 | h7 <;> rw [h7] at hk <;> cases hk
    rw [evsOf_slanted hsl] at h6
    simp only [List.mem_cons, List.not_mem_nil, or_false] at h6
    refine ⟨h5, hsl, ?_⟩
    rcases h6 with h7 | h7
    · rw [h7] at hk; cases hk
    · rw [← hx' e he, h7]
  · rintro ⟨hs, hsl, hhi⟩
    exact ⟨⟨s.hi, s, 1⟩, ⟨h4 s hs _ (by rw [evsOf_slanted hsl]; simp) hhi, rfl⟩, rfl⟩

theorem kind_segs_nodup {b : List Ev} (k : Nat) (hk : k < 2) (h : (b.filter fun e => decide (e.kind < 2)).Nodup)
    {x' : ℚ} (hx' : ∀ e ∈ b, e.x = x') : ((b.filter fun e => e.kind = k).map Ev.seg).Nodup := by
  have h1 : (b.filter fun e => e.kind = k).Nodup := by
    have : (b.filter fun e => e.kind = k) = (b.filter fun e => decide (e.kind < 2)).filter fun e => e.kind = k := by
      rw [List.filter_filter]
      apply List.filter_congr
      intro e _
      by_cases h : e.kind = k <;> simp [h, hk]
    rw [this]
    exact h.filter _
  rw [List.nodup_map_iff_inj_on h1]
  intro e he f hf hef
  simp only [List.mem_filter, decide_eq_true_eq] at he hf
  obtain ⟨ex, es, ek⟩ := e
  obtain ⟨fx, fs, fk⟩ := f
  have := hx' _ he.1
  have := hx' _ hf.1
  simp_all

/-- One round, whatever order the segments beginning in it are inserted in. -/
theorem At.step_perm {S : List CSeg} {x : ℚ} {q : List CSeg} {b : List Ev} {bs : List (List Ev)} (h : At S x q (b :: bs))
    {x' : ℚ} (hx' : ∀ e ∈ b, e.x = x') {q1 : List CSeg} (hperm : q1.Perm (beginSegs b ++ q)) : ∃ out, endLoop (endingSegs b) b q1 =
      .ok (q1.filter (fun s => s ∉ endingSegs b), out) ∧ out.map Prod.fst = b ∧
      (∀ o ∈ out, Recorded (endingSegs b) q1 o) ∧
      At S x' (q1.filter (fun s => s ∉ endingSegs b)) bs := by
  obtain ⟨hxx, h2, h3, h4, h5⟩ := h.next hx'
  have honce : (b.filter fun e => decide (e.kind < 2)).Nodup ∧ (bs.flatten.filter fun e => decide (e.kind < 2)).Nodup := by
    have := h.once
    rw [List.flatten_cons, List.filter_append, List.nodup_append] at this
    exact ⟨this.1, this.2.1⟩
  have hmb := mem_beginSegs h hx'
  have hme := mem_endingSegs h hx'
  have hn1 : q1.Nodup := by
    rw [hperm.nodup_iff, List.nodup_append]
    refine ⟨kind_segs_nodup 0 (by omega) honce.1 hx', h.nodup, ?_⟩
    rintro s hs t ht rfl
    have h6 := ((hmb s).1 hs).2.2
    have h7 := ((h.mem s).1 ht).2.2.1
    linarith
  have hends : ∀ s ∈ S, s.Slanted → (s.lo ≤ x ∨ x' ≤ s.lo) ∧ (s.hi ≤ x ∨ x' ≤ s.hi) := by
    intro s hs hsl
    exact ⟨h2 s hs ⟨s.lo, s, 0⟩ (by rw [evsOf_slanted hsl]; simp), h2 s hs ⟨s.hi, s, 1⟩ (by rw [evsOf_slanted hsl]; simp)⟩
  have hq1 : ∀ s, s ∈ q1 ↔ s ∈ S ∧ s.Slanted ∧ s.lo ≤ x' ∧ x < s.hi := by
    intro s
    rw [hperm.mem_iff, List.mem_append, hmb, h.mem]
    constructor
    · rintro (⟨a1, a2, a3⟩ | ⟨a1, a2, a3, a4⟩)
      · exact ⟨a1, a2, a3.le, by have := lo_lt_hi a2; linarith⟩
      · exact ⟨a1, a2, by linarith, a4⟩
    · rintro ⟨a1, a2, a3, a4⟩
      rcases (hends s a1 a2).1 with h6 | h6
      · exact Or.inr ⟨a1, a2, h6, a4⟩
      · exact Or.inl ⟨a1, a2, le_antisymm a3 h6⟩
  obtain ⟨out, ho, hfst, hrec⟩ := endLoop_spec (endingSegs b) b q1 hn1 (by
    intro s hs
    refine ⟨hs, ?_⟩
    obtain ⟨a1, a2, a3⟩ := (hme s).1 hs
    rw [hq1]
    exact ⟨a1, a2, by have := lo_lt_hi a2; linarith, by linarith⟩) (kind_segs_nodup 1 (by omega) honce.1 hx')
  refine ⟨out, ho, hfst, hrec, ?_⟩
  obtain ⟨hb1, hb2⟩ := h.batched
  rw [List.pairwise_cons] at hb2
  refine ⟨⟨fun c hc => hb1 c (by simp [hc]), hb2.2⟩, ?_, h5, fun e he => h.from' e (by rw [List.flatten_cons]; simp only [List.mem_append]; exact Or.inr he), honce.2, hn1.filter _, ?_⟩
  · intro e he
    obtain ⟨c, hc, hec⟩ := List.mem_flatten.1 he
    obtain ⟨hne, -⟩ := hb1 b (by simp)
    obtain ⟨e0, he0⟩ := List.exists_mem_of_ne_nil b hne
    rw [← hx' e0 he0]
    exact hb2.1 c hc e0 he0 e hec
  · intro s
    simp only [List.mem_filter, decide_eq_true_eq]
    rw [hq1, hme]
    constructor
    · rintro ⟨⟨a1, a2, a3, a4⟩, h6⟩
      refine ⟨a1, a2, a3, ?_⟩
      rcases (hends s a1 a2).2 with h7 | h7
      · linarith
      · exact lt_of_le_of_ne h7 fun hc => h6 ⟨a1, a2, hc.symm⟩
    · rintro ⟨a1, a2, a3, a4⟩
      exact ⟨⟨a1, a2, a3, by linarith⟩, fun hc => by linarith [hc.2.2]⟩

theorem At.step {S : List CSeg} {x : ℚ} {q : List CSeg} {b : List Ev} {bs : List (List Ev)} (h : At S x q (b :: bs))
    {x' : ℚ} (hx' : ∀ e ∈ b, e.x = x') : ∃ out, endLoop (endingSegs b) b (beginLoop b q) =
      .ok ((beginLoop b q).filter (fun s => s ∉ endingSegs b), out) ∧ out.map Prod.fst = b ∧
      (∀ o ∈ out, Recorded (endingSegs b) (beginLoop b q) o) ∧
      At S x' ((beginLoop b q).filter (fun s => s ∉ endingSegs b)) bs :=
  h.step_perm hx' (beginLoop_perm b q)

/-! ### Checks -/

theorem check_ok {q : List CSeg} {e : Ev} {l r : Option CSeg} (h : e.kind = 0 → e.seg ∈ q) : ∃ b, check q e l r = .ok b := by
  unfold check
  split
  · exact ⟨_, rfl⟩
  · split
    · next hk =>
      have := h hk
      rw [leftof, if_pos this, rightof, if_pos this]
      exact ⟨_, rfl⟩
    · split
      · exact ⟨_, rfl⟩
      · exact ⟨_, rfl⟩

theorem checkLoop_ok {q : List CSeg} (out : List (Ev × Option CSeg × Option CSeg))
    (h : ∀ o ∈ out, o.1.kind = 0 → o.1.seg ∈ q) :
    (checkLoop q out = .ok true ∧ ∃ o ∈ out, check q o.1 o.2.1 o.2.2 = .ok true) ∨
    (checkLoop q out = .ok false ∧ ∀ o ∈ out, check q o.1 o.2.1 o.2.2 = .ok false) := by
  induction out with
  | nil => exact Or.inr ⟨rfl, by simp⟩
  | cons o out ih =>
    obtain ⟨e, l, r⟩ := o
    rw [checkLoop]
    obtain ⟨b, hb⟩ := check_ok (l := l) (r := r) (h (e, l, r) (by simp))
    cases b with
    | true => left; rw [hb]; exact ⟨rfl, (e, l, r), by simp, hb⟩
    | false =>
      rw [hb]
      simp only
      rcases ih (fun o ho => h o (by simp [ho])) with ⟨h1, o, ho, h2⟩ | ⟨h1, h2⟩
      · exact Or.inl ⟨h1, o, by simp [ho], h2⟩
      · right
        refine ⟨h1, ?_⟩
        intro o ho
        rcases List.mem_cons.1 ho with rfl | ho
        · exact hb
        · exact h2 o ho

/-- The sweep never fails when no slanted segment occurs twice, and one round either succeeds or hands over. -/
theorem sweep_step {S : List CSeg} {x : ℚ} {q : List CSeg} {b : List Ev} {bs : List (List Ev)} (h : At S x q (b :: bs))
    {x' : ℚ} (hx' : ∀ e ∈ b, e.x = x') : ∃ (q' : List CSeg) (out : List (Ev × Option CSeg × Option CSeg)), q' = (beginLoop b q).filter (fun s => s ∉ endingSegs b) ∧
      out.map Prod.fst = b ∧ (∀ o ∈ out, Recorded (endingSegs b) (beginLoop b q) o) ∧ At S x' q' bs ∧
      ((sweep (b :: bs) q = .ok true ∧ ∃ o ∈ out, check q' o.1 o.2.1 o.2.2 = .ok true) ∨
       (sweep (b :: bs) q = sweep bs q' ∧ ∀ o ∈ out, check q' o.1 o.2.1 o.2.2 = .ok false)) := by
  obtain ⟨out, ho, hfst, hrec, hat⟩ := h.step hx'
  obtain ⟨hxx, h2, h3, h4, h5⟩ := h.next hx'
  refine ⟨_, out, rfl, hfst, hrec, hat, ?_⟩
  have hk : ∀ o ∈ out, o.1.kind = 0 → o.1.seg ∈ (beginLoop b q).filter (fun s => s ∉ endingSegs b) := by
    intro o ho' hk
    have hob : o.1 ∈ b := by rw [← hfst]; exact List.mem_map_of_mem ho'
    have : o.1.seg ∈ beginSegs b := List.mem_map.2 ⟨o.1, by simp [hob, hk], rfl⟩
    obtain ⟨a1, a2, a3⟩ := (mem_beginSegs h hx' _).1 this
    exact (hat.mem _).2 ⟨a1, a2, a3.le, by have := lo_lt_hi a2; linarith⟩
  rcases checkLoop_ok out hk with ⟨h6, h7⟩ | ⟨h6, h7⟩
  · left
    rw [sweep, ho]
    simp only
    rw [h6]
    exact ⟨rfl, h7⟩
  · right
    rw [sweep, ho]
    simp only
    rw [h6]
    exact ⟨rfl, h7⟩

/-! ### Soundness -/

/-- What a positive answer is based on. -/
def Witness (S : List CSeg) : Prop :=
  ∃ s ∈ S, ∃ t ∈ S, s.color ≠ t.color ∧ ∃ p, s.seg.On p ∧ t.seg.On p

/-- Segments that cross a common abscissa and pass the test do have a common point. -/
theorem meet_of_segIntersects {s t : CSeg} (ss : s.Slanted) (st : t.Slanted) {x : ℚ} (s1 : s.lo ≤ x) (s2 : x ≤ s.hi)
    (t1 : t.lo ≤ x) (t2 : x ≤ t.hi) (h : segIntersects s.seg t.seg = true) : ∃ p, s.seg.On p ∧ t.seg.On p := by
  rw [segIntersects] at h
  by_cases hc : iscollinear s.seg t.seg = true
  · have hm := slope_mul ss
    have hd : s.seg.b.x - s.seg.a.x ≠ 0 := sub_ne_zero.2 (Ne.symm ss)
    have hpar : s.seg.Parallel t.seg ∧
        (s.seg.b.x - s.seg.a.x) * (t.seg.b.y - s.seg.a.y) = (s.seg.b.y - s.seg.a.y) * (t.seg.b.x - s.seg.a.x) := by
      unfold iscollinear cross2 at hc
      by_cases h1 : (s.seg.b.x - s.seg.a.x) * (t.seg.b.y - t.seg.a.y) - (s.seg.b.y - s.seg.a.y) * (t.seg.b.x - t.seg.a.x) = 0
      · simp only [if_pos h1] at hc
        by_cases h2 : (s.seg.b.x - s.seg.a.x) * (t.seg.b.y - s.seg.a.y) - (s.seg.b.y - s.seg.a.y) * (t.seg.b.x - s.seg.a.x) = 0
        · exact ⟨sub_eq_zero.1 h1, sub_eq_zero.1 h2⟩
        · simp only [if_neg h2] at hc; cases hc
      · simp only [if_neg h1] at hc; cases hc
    have hsl := (slanted_parallel ss st).1 hpar.1
    have hline := cross_zero_line hpar.1 hpar.2
    refine ⟨⟨x, height s x⟩, (on_iff ss _).2 ⟨s1, s2, rfl⟩, (on_iff st _).2 ⟨t1, t2, ?_⟩⟩
    have hta : t.seg.a.y - s.seg.a.y = slope s * (t.seg.a.x - s.seg.a.x) := by
      apply mul_left_cancel₀ hd
      rw [hline, ← hm]; ring
    rw [height_eq, height_eq, ← hsl]
    linear_combination -hta
  · rw [if_neg hc] at h
    cases hi : intersection s.seg t.seg with
    | none => rw [hi] at h; simp at h
    | some p =>
      obtain ⟨-, h1, h2, -⟩ := (C34_intersection_exact _ _ _).1 hi
      exact ⟨p, h1, h2⟩

theorem cIntersects_true {p r : CSeg} (h : cIntersects p r = true) : p.color ≠ r.color ∧ segIntersects p.seg r.seg = true := by
  rw [cIntersects] at h
  split at h
  · cases h
  · next hc => exact ⟨hc, h⟩

theorem leftof_mem {q : List CSeg} {s l : CSeg} (h : leftof q s = .ok (some l)) : l ∈ q := by
  rw [leftof] at h
  split at h
  · injection h with h
    split at h
    · cases h
    · exact List.mem_of_getElem? h
  · cases h

theorem rightof_mem {q : List CSeg} {s l : CSeg} (h : rightof q s = .ok (some l)) : l ∈ q := by
  rw [rightof] at h
  split at h
  · injection h with h
    split at h
    · cases h
    · exact List.mem_of_getElem? h
  · cases h

theorem vertical_on {v : Seg} (hv : v.a.x = v.b.x) {y : ℚ} (h : (v.a.y ≤ y ∧ v.b.y ≥ y) ∨ (v.b.y ≤ y ∧ v.a.y ≥ y)) :
    v.On ⟨v.a.x, y⟩ := by
  by_cases hd : v.b.y - v.a.y = 0
  · refine ⟨0, le_refl _, zero_le_one, by simp, ?_⟩
    simp only [zero_mul, add_zero]
    rcases h with ⟨h1, h2⟩ | ⟨h1, h2⟩ <;> linarith
  · refine ⟨(y - v.a.y) / (v.b.y - v.a.y), ?_, ?_, ?_, ?_⟩
    · rcases h with ⟨h1, h2⟩ | ⟨h1, h2⟩
      · exact div_nonneg (by linarith) (by linarith)
      · exact div_nonneg_of_nonpos (by linarith) (by linarith)
    · rcases h with ⟨h1, h2⟩ | ⟨h1, h2⟩
      · have : 0 < v.b.y - v.a.y := lt_of_le_of_ne (by linarith) (Ne.symm hd)
        rw [div_le_one this]; linarith
      · have : v.b.y - v.a.y < 0 := lt_of_le_of_ne (by linarith) hd
        rw [div_le_one_of_neg this]; linarith
    · simp only; rw [hv]; ring
    · simp only; rw [div_mul_cancel₀ _ hd]; ring

theorem check_sound {S : List CSeg} {x : ℚ} {q' : List CSeg} {bs : List (List Ev)} (hat : At S x q' bs)
    {e : Ev} {l r : Option CSeg} (hes : e.seg ∈ S) (hev : e ∈ evsOf e.seg) (hex : e.x = x) {E q1 : List CSeg}
    (hq1 : q' = q1.filter fun s => s ∉ E) (hmem : e.kind = 1 → e.seg ∈ q1) (hrec : Recorded E q1 (e, l, r))
    (h : check q' e l r = .ok true) : Witness S := by
  unfold check at h
  split at h
  · next hk =>
    injection h with h
    rw [List.any_eq_true] at h
    obtain ⟨s, hs, hv⟩ := h
    obtain ⟨a1, a2, a3, a4⟩ := (hat.mem s).1 hs
    have hvert : ¬ e.seg.Slanted := by
      intro hc
      rw [evsOf_slanted hc] at hev
      simp only [List.mem_cons, List.not_mem_nil, or_false] at hev
      rcases hev with h7 | h7 <;> rw [h7] at hk <;> cases hk
    have hvx : e.seg.seg.a.x = x := by
      rcases (mem_evsOf_vertical hvert e).1 hev with h7 | h7 <;> · rw [h7] at hex; exact hex
    rw [verticalHit] at hv
    split at hv
    · cases hv
    · next hc =>
      simp only [decide_eq_true_eq] at hv
      refine ⟨e.seg, hes, s, a1, hc, ⟨e.seg.seg.a.x, _⟩, vertical_on (not_not.1 hvert) hv, ?_⟩
      rw [on_iff a2]
      refine ⟨by simp only; linarith, by simp only; linarith, ?_⟩
      rw [height_eq, slope_eq]
  · split at h
    · next hk =>
      by_cases hm : e.seg ∈ q'
      swap
      · rw [leftof, if_neg hm] at h; cases h
      obtain ⟨l', hl'⟩ : ∃ l', leftof q' e.seg = .ok l' := by rw [leftof, if_pos hm]; exact ⟨_, rfl⟩
      obtain ⟨r', hr'⟩ : ∃ r', rightof q' e.seg = .ok r' := by rw [rightof, if_pos hm]; exact ⟨_, rfl⟩
      rw [hl', hr'] at h
      simp only [Except.ok.injEq, Bool.or_eq_true] at h
      have hse := (hat.mem _).1 hm
      rcases h with h | h
      · cases l' with
        | none => simp at h
        | some s =>
          simp only [Option.map_some, Option.getD_some] at h
          obtain ⟨h1, h2⟩ := cIntersects_true h
          have hs := (hat.mem s).1 (leftof_mem hl')
          exact ⟨s, hs.1, e.seg, hes, h1, meet_of_segIntersects hs.2.1 hse.2.1 hs.2.2.1 hs.2.2.2.le hse.2.2.1 hse.2.2.2.le h2⟩
      · cases r' with
        | none => simp at h
        | some s =>
          simp only [Option.map_some, Option.getD_some] at h
          obtain ⟨h1, h2⟩ := cIntersects_true h
          have hs := (hat.mem s).1 (rightof_mem hr')
          exact ⟨e.seg, hes, s, hs.1, h1, meet_of_segIntersects hse.2.1 hs.2.1 hse.2.2.1 hse.2.2.2.le hs.2.2.1 hs.2.2.2.le h2⟩
    · split at h
      · next hk =>
        obtain ⟨P, R, hPR⟩ := List.append_of_mem (hmem hk)
        obtain ⟨h1, h2⟩ := hrec hk P R hPR
        simp only at h1 h2
        cases l with
        | none => simp at h
        | some s =>
          cases r with
          | none => simp at h
          | some t =>
            simp only [Option.bind_some, Option.map_some, Option.getD_some, Except.ok.injEq] at h
            obtain ⟨h3, h4⟩ := cIntersects_true h
            have hs : s ∈ q' := by
              have : s ∈ P.filter fun s => s ∉ E := List.mem_of_getLast? h1.symm
              rw [List.mem_filter] at this
              rw [hq1, hPR, List.mem_filter]
              exact ⟨by simp [this.1], this.2⟩
            have ht : t ∈ q' := by
              have : t ∈ R.filter fun s => s ∉ E := List.mem_of_head? h2.symm
              rw [List.mem_filter] at this
              rw [hq1, hPR, List.mem_filter]
              exact ⟨by simp [this.1], this.2⟩
            have hs' := (hat.mem s).1 hs
            have ht' := (hat.mem t).1 ht
            exact ⟨s, hs'.1, t, ht'.1, h3, meet_of_segIntersects hs'.2.1 ht'.2.1 hs'.2.2.1 hs'.2.2.2.le ht'.2.2.1 ht'.2.2.2.le h4⟩
      · cases h

theorem ending_in_line {S : List CSeg} {x : ℚ} {q : List CSeg} {b : List Ev} {bs : List (List Ev)} (h : At S x q (b :: bs))
    {x' : ℚ} (hx' : ∀ e ∈ b, e.x = x') {e : Ev} (he : e ∈ b) (hk : e.kind = 1) : e.seg ∈ beginLoop b q := by
  obtain ⟨hxx, h2, -⟩ := h.next hx'
  obtain ⟨a1, a2, a3⟩ := (mem_endingSegs h hx' e.seg).1 (List.mem_map.2 ⟨e, by simp [he, hk], rfl⟩)
  rw [(beginLoop_perm b q).mem_iff, List.mem_append, mem_beginSegs h hx', h.mem]
  right
  refine ⟨a1, a2, ?_, by linarith⟩
  rcases h2 _ a1 ⟨e.seg.lo, e.seg, 0⟩ (by rw [evsOf_slanted a2]; simp) with h6 | h6
  · exact h6
  · have := lo_lt_hi a2; simp only at h6; linarith

theorem sweep_sound {S : List CSeg} : ∀ (bs : List (List Ev)) (x : ℚ) (q : List CSeg), At S x q bs →
    sweep bs q = .ok false ∨ (sweep bs q = .ok true ∧ Witness S) := by
  intro bs
  induction bs with
  | nil => intro x q _; exact Or.inl rfl
  | cons b bs ih =>
    intro x q h
    obtain ⟨hne, x', hx'⟩ := h.batched.1 b (by simp)
    obtain ⟨q', out, rfl, hfst, hrec, hat, hs⟩ := sweep_step h hx'
    rcases hs with ⟨h1, ⟨e, l, r⟩, ho, h2⟩ | ⟨h1, h2⟩
    · right
      have heb : e ∈ b := by rw [← hfst]; exact List.mem_map_of_mem (f := Prod.fst) ho
      obtain ⟨-, -, h3, -⟩ := h.next hx'
      exact ⟨h1, check_sound hat (h3 e heb).1 (h3 e heb).2 (hx' e heb) rfl
        (ending_in_line h hx' heb) (hrec _ ho) h2⟩
    · rw [h1]; exact ih x' _ hat

end Karta.Vec.Sweep
