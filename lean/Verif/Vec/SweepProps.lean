import Verif.Vec.SweepComplete
import Mathlib.Data.List.Perm.Subperm

/-! Property C36: the sweep-line intersection test. -/

namespace Karta.Vec.Sweep
open Karta Karta.Vec

/-! ### Specification -/

/-- Spec: the boundaries of the two geometries have a point in common. -/
def Meet (ra : Bool) (as : List Pt) (rb : Bool) (bs : List Pt) : Prop :=
  ∃ s t p, IsSegment ra as s ∧ IsSegment rb bs t ∧ s.On p ∧ t.On p

/-- Spec: any two segments of the geometry have only end points in common. -/
def NoSelfCrossing (ring : Bool) (ps : List Pt) : Prop :=
  (segsOf ring ps).Pairwise fun s t => ∀ p, s.On p → t.On p → (p = s.a ∨ p = s.b) ∧ (p = t.a ∨ p = t.b)

/-- Spec: where the two geometries meet, no vertex of either is involved. -/
def ProperMeetings (ra : Bool) (as : List Pt) (rb : Bool) (bs : List Pt) : Prop :=
  ∀ s t p, IsSegment ra as s → IsSegment rb bs t → s.On p → t.On p → (p ≠ s.a ∧ p ≠ s.b) ∧ (p ≠ t.a ∧ p ≠ t.b)

/-- Spec: no segment that is not vertical is drawn twice in the same direction. -/
def NoRepeat (ring : Bool) (ps : List Pt) : Prop := ((segsOf ring ps).filter fun s => decide (s.a.x ≠ s.b.x)).Nodup

/-- Spec: as `NoSelfCrossing`, for points not to the right of `X`. -/
def NoSelfCrossingUpTo (X : ℚ) (ring : Bool) (ps : List Pt) : Prop :=
  (segsOf ring ps).Pairwise fun s t => ∀ p, p.x ≤ X → s.On p → t.On p → (p = s.a ∨ p = s.b) ∧ (p = t.a ∨ p = t.b)

/-- Spec: as `ProperMeetings`, for points not to the right of `X`. -/
def ProperMeetingsUpTo (X : ℚ) (ra : Bool) (as : List Pt) (rb : Bool) (bs : List Pt) : Prop :=
  ∀ s t p, p.x ≤ X → IsSegment ra as s → IsSegment rb bs t → s.On p → t.On p → (p ≠ s.a ∧ p ≠ s.b) ∧ (p ≠ t.a ∧ p ≠ t.b)

/-! ### Connection with coloured segments -/

theorem mem_colored (ra : Bool) (as : List Pt) (rb : Bool) (bs : List Pt) (s : CSeg) :
    s ∈ colored ra as rb bs ↔ (s.color = false ∧ IsSegment ra as s.seg) ∨ (s.color = true ∧ IsSegment rb bs s.seg) := by
  unfold colored
  obtain ⟨s, c⟩ := s
  simp only [List.mem_append, List.mem_map, CSeg.mk.injEq, mem_segsOf]
  cases c <;> simp

theorem colored_nodup {ra : Bool} {as : List Pt} {rb : Bool} {bs : List Pt} (ha : NoRepeat ra as) (hb : NoRepeat rb bs) :
    ((colored ra as rb bs).filter fun s => decide s.Slanted).Nodup := by
  unfold colored
  rw [List.filter_append, List.nodup_append, List.filter_map, List.filter_map]
  refine ⟨?_, ?_, ?_⟩
  · apply List.Nodup.map _ ha
    intro s t h
    exact (CSeg.mk.injEq _ _ _ _ ▸ h).1
  · apply List.Nodup.map _ hb
    intro s t h
    exact (CSeg.mk.injEq _ _ _ _ ▸ h).1
  · intro s hs t ht
    simp only [List.mem_map] at hs ht
    obtain ⟨s', -, rfl⟩ := hs
    obtain ⟨t', -, rfl⟩ := ht
    simp

theorem noRepeat_of_simple {ring : Bool} {ps : List Pt} (h : NoSelfCrossing ring ps) : NoRepeat ring ps := by
  unfold NoRepeat
  rw [List.nodup_iff_pairwise_ne]
  apply List.Pairwise.imp_of_mem _ (h.filter _)
  rintro s t hs - hst rfl
  simp only [List.mem_filter, decide_eq_true_eq] at hs
  have hon : s.On ⟨(s.a.x + s.b.x) / 2, (s.a.y + s.b.y) / 2⟩ :=
    ⟨1 / 2, by norm_num, by norm_num, by simp only; ring, by simp only; ring⟩
  have h1 := (hst _ hon hon).1
  apply hs.2
  rcases h1 with h1 | h1
  · have := congrArg P2.x h1; simp only at this; linarith
  · have := congrArg P2.x h1; simp only at this; linarith

theorem pairwise_sym {T : Seg → Seg → Prop} (hsym : ∀ a b, T a b → T b a) {l : List Seg} (h : l.Pairwise T) {s t : Seg}
    (hs : s ∈ l) (ht : t ∈ l) (hne : s ≠ t) : T s t := by
  induction l with
  | nil => cases hs
  | cons a l ih =>
    rw [List.pairwise_cons] at h
    rcases List.mem_cons.1 hs with h1 | h1
    · rcases List.mem_cons.1 ht with h2 | h2
      · exact absurd (h1.trans h2.symm) hne
      · rw [h1]; exact h.1 t h2
    · rcases List.mem_cons.1 ht with h2 | h2
      · rw [h2]; exact hsym _ _ (h.1 s h1)
      · exact ih h.2 h1 h2

theorem general_of {ra : Bool} {as : List Pt} {rb : Bool} {bs : List Pt} {X : ℚ} (ha : NoSelfCrossingUpTo X ra as)
    (hb : NoSelfCrossingUpTo X rb bs) (hm : ProperMeetingsUpTo X ra as rb bs) : General (colored ra as rb bs) X := by
  constructor
  · intro s hs t ht hne hc p hX h1 h2
    rw [mem_colored] at hs ht
    have hne' : s.seg ≠ t.seg := by
      intro h
      apply hne
      obtain ⟨s, c⟩ := s
      obtain ⟨t, d⟩ := t
      simp only at h hc
      rw [h, hc]
    rcases hs with ⟨c1, i1⟩ | ⟨c1, i1⟩
    · rcases ht with ⟨c2, i2⟩ | ⟨c2, i2⟩
      · rw [← mem_segsOf] at i1 i2
        exact pairwise_sym (fun a b h p hX h1 h2 => (h p hX h2 h1).symm) ha i1 i2 hne' p hX h1 h2
      · rw [c1, c2] at hc; cases hc
    · rcases ht with ⟨c2, i2⟩ | ⟨c2, i2⟩
      · rw [c1, c2] at hc; cases hc
      · rw [← mem_segsOf] at i1 i2
        exact pairwise_sym (fun a b h p hX h1 h2 => (h p hX h2 h1).symm) hb i1 i2 hne' p hX h1 h2
  · intro s hs t ht hc p hX h1 h2
    rw [mem_colored] at hs ht
    unfold CSeg.End
    rcases hs with ⟨c1, i1⟩ | ⟨c1, i1⟩
    · rcases ht with ⟨c2, i2⟩ | ⟨c2, i2⟩
      · rw [c1, c2] at hc; exact absurd rfl hc
      · obtain ⟨⟨a1, a2⟩, a3, a4⟩ := hm _ _ _ hX i1 i2 h1 h2
        exact ⟨not_or.2 ⟨a1, a2⟩, not_or.2 ⟨a3, a4⟩⟩
    · rcases ht with ⟨c2, i2⟩ | ⟨c2, i2⟩
      · obtain ⟨⟨a1, a2⟩, a3, a4⟩ := hm _ _ _ hX i2 i1 h2 h1
        exact ⟨not_or.2 ⟨a3, a4⟩, not_or.2 ⟨a1, a2⟩⟩
      · rw [c1, c2] at hc; exact absurd rfl hc

theorem witness_iff (ra : Bool) (as : List Pt) (rb : Bool) (bs : List Pt) :
    Witness (colored ra as rb bs) ↔ Meet ra as rb bs := by
  constructor
  · rintro ⟨s, hs, t, ht, hc, p, h1, h2⟩
    rw [mem_colored] at hs ht
    rcases hs with ⟨c1, i1⟩ | ⟨c1, i1⟩
    · rcases ht with ⟨c2, i2⟩ | ⟨c2, i2⟩
      · rw [c1, c2] at hc; exact absurd rfl hc
      · exact ⟨_, _, p, i1, i2, h1, h2⟩
    · rcases ht with ⟨c2, i2⟩ | ⟨c2, i2⟩
      · exact ⟨_, _, p, i2, i1, h2, h1⟩
      · rw [c1, c2] at hc; exact absurd rfl hc
  · rintro ⟨s, t, p, i1, i2, h1, h2⟩
    exact ⟨⟨s, false⟩, (mem_colored _ _ _ _ _).2 (Or.inl ⟨rfl, i1⟩), ⟨t, true⟩, (mem_colored _ _ _ _ _).2 (Or.inr ⟨rfl, i2⟩),
      by simp, p, h1, h2⟩

/-! ### Theorems -/

/-- C36, no false alarms: when neither geometry draws a segment that is not vertical twice, the sweep comes
to an end without error, and the answer True is given only if the geometries have a point in common.
Missing: geometries that retrace a segment (see `C36_violated_retrace`). -/
theorem C36_sound_partial (ra : Bool) (as : List Pt) (rb : Bool) (bs : List Pt) (ha : NoRepeat ra as) (hb : NoRepeat rb bs) :
    ∃ r, intersects ra as rb bs = .ok r ∧ (r = true → Meet ra as rb bs) := by
  obtain ⟨x, -, hat⟩ := at_start _ (colored_nodup ha hb)
  rcases sweep_sound _ x [] hat with h | ⟨h, hw⟩
  · exact ⟨false, h, by simp⟩
  · exact ⟨true, h, fun _ => (witness_iff _ _ _ _).1 hw⟩

/-- C36 for vertical segments: a vertical segment of one geometry that meets a segment of the other that is
not vertical, elsewhere than in its right-hand end, is always noticed. -/
theorem C36_vertical_partial (ra : Bool) (as : List Pt) (rb : Bool) (bs : List Pt) (ha : NoRepeat ra as) (hb : NoRepeat rb bs)
    (s t : Seg) (p : Pt) (h : (IsSegment ra as s ∧ IsSegment rb bs t) ∨ (IsSegment ra as t ∧ IsSegment rb bs s))
    (hs : s.a.x = s.b.x) (ht : t.a.x ≠ t.b.x) (h1 : s.On p) (h2 : t.On p) (hp : p.x < max t.a.x t.b.x) :
    intersects ra as rb bs = .ok true := by
  obtain ⟨x, hx, hat⟩ := at_start _ (colored_nodup ha hb)
  rcases sweep_sound _ x [] hat with hf | ⟨ht, -⟩
  swap
  · exact ht
  exfalso
  obtain ⟨c, hsc, htc⟩ : ∃ c, (⟨s, c⟩ : CSeg) ∈ colored ra as rb bs ∧ (⟨t, !c⟩ : CSeg) ∈ colored ra as rb bs := by
    rcases h with ⟨i1, i2⟩ | ⟨i1, i2⟩
    · exact ⟨false, (mem_colored _ _ _ _ _).2 (Or.inl ⟨rfl, i1⟩), (mem_colored _ _ _ _ _).2 (Or.inr ⟨rfl, i2⟩)⟩
    · exact ⟨true, (mem_colored _ _ _ _ _).2 (Or.inr ⟨rfl, i2⟩), (mem_colored _ _ _ _ _).2 (Or.inl ⟨rfl, i1⟩)⟩
  have := sweep_vertical _ x [] hat hf _ hsc _ htc (fun h => h hs) ht (by simp) p h1 h2 hp
  obtain ⟨e, he, hep⟩ := contact_event hsc h1
  linarith [hx e he]

/-- C36, the first contact decides: when the geometries meet in a point, and not to the right of it neither
crosses itself and no vertex is involved where the two meet, the answer is True, whatever happens to the
right of it.  Missing: geometries that cross themselves before they meet, for which it is false
(`C36_violated_self_crossing`), and contacts in vertices (`C36_violated_touch`). -/
theorem C36_first_contact_partial (ra : Bool) (as : List Pt) (rb : Bool) (bs : List Pt) (na : NoRepeat ra as)
    (nb : NoRepeat rb bs) (s t : Seg) (p : Pt) (i1 : IsSegment ra as s) (i2 : IsSegment rb bs t) (h1 : s.On p) (h2 : t.On p)
    (ha : NoSelfCrossingUpTo p.x ra as) (hb : NoSelfCrossingUpTo p.x rb bs) (hm : ProperMeetingsUpTo p.x ra as rb bs) :
    intersects ra as rb bs = .ok true := by
  have hG := general_of ha hb hm
  obtain ⟨x, hx, hat⟩ := at_start _ (colored_nodup na nb)
  rcases sweep_sound _ x [] hat with h | ⟨h, -⟩
  swap
  · exact h
  exfalso
  obtain ⟨s, c, hs, rfl⟩ : ∃ (s' : CSeg) (c : Bool), s' ∈ colored ra as rb bs ∧ s' = ⟨s, false⟩ :=
    ⟨⟨s, false⟩, false, (mem_colored _ _ _ _ _).2 (Or.inl ⟨rfl, i1⟩), rfl⟩
  obtain ⟨t, ht, rfl⟩ : ∃ t' : CSeg, t' ∈ colored ra as rb bs ∧ t' = ⟨t, true⟩ :=
    ⟨⟨t, true⟩, (mem_colored _ _ _ _ _).2 (Or.inr ⟨rfl, i2⟩), rfl⟩
  have hc : (⟨s, false⟩ : CSeg).color ≠ (⟨t, true⟩ : CSeg).color := by simp
  have hev : x < p.x := by
    obtain ⟨e, he, hep⟩ := contact_event hs h1
    exact lt_of_lt_of_le (hx e he) hep
  have key : p.x ≤ x := by
    by_cases ss : (⟨s, false⟩ : CSeg).Slanted
    · by_cases st : (⟨t, true⟩ : CSeg).Slanted
      · exact sweep_complete hG _ x [] hat ⟨List.Pairwise.nil, fun p r ⟨A, B, e⟩ => by simp at e⟩ h _ hs _ ht ss st hc p
          (le_refl _) h1 h2
      · exact sweep_vertical _ x [] hat h _ ht _ hs st ss (Ne.symm hc) p h2 h1
          (hG.interior ht hs (Ne.symm hc) ss (le_refl _) h2 h1).2
    · by_cases st : (⟨t, true⟩ : CSeg).Slanted
      · exact sweep_vertical _ x [] hat h _ hs _ ht ss st hc p h1 h2 (hG.interior hs ht hc st (le_refl _) h1 h2).2
      · exact (hG.not_both_vertical hs ht hc ss st (le_refl _) h1 h2).elim
  linarith

/-- C36: when no geometry crosses or retraces itself and the geometries do not meet in vertices, the sweep
comes to an end and answers True exactly if the geometries have a point in common.  Missing from the full
property: geometries that cross themselves, for which it is false (`C36_violated_self_crossing`), and contacts
in vertices (`C36_violated_touch`). -/
theorem C36_exact_partial (ra : Bool) (as : List Pt) (rb : Bool) (bs : List Pt) (ha : NoSelfCrossing ra as)
    (hb : NoSelfCrossing rb bs) (hm : ProperMeetings ra as rb bs) :
    ∃ r, intersects ra as rb bs = .ok r ∧ (r = true ↔ Meet ra as rb bs) := by
  obtain ⟨r, hr, hs⟩ := C36_sound_partial ra as rb bs (noRepeat_of_simple ha) (noRepeat_of_simple hb)
  refine ⟨r, hr, hs, ?_⟩
  rintro ⟨s, t, p, i1, i2, h1, h2⟩
  rw [C36_first_contact_partial ra as rb bs (noRepeat_of_simple ha) (noRepeat_of_simple hb) s t p i1 i2 h1 h2
    (ha.imp fun h p _ => h p) (hb.imp fun h p _ => h p) (fun s t p _ => hm s t p)] at hr
  injection hr with hr
  exact hr.symm

theorem segment_in_box {ring : Bool} {ps : List Pt} {b : Box} (hb : bbox ps = some b) {s : Seg} (hs : IsSegment ring ps s)
    {p : Pt} (hp : s.On p) : b.Contains p := by
  have hab : s.a ∈ ps ∧ s.b ∈ ps := by
    rcases hs with ⟨i, h1, h2⟩ | ⟨-, h1, h2⟩
    · exact ⟨List.mem_of_getElem? h1, List.mem_of_getElem? h2⟩
    · exact ⟨List.mem_of_getLast? h1, List.mem_of_head? h2⟩
  obtain ⟨a1, a2, a3, a4⟩ := bbox_contains hb _ hab.1
  obtain ⟨b1, b2, b3, b4⟩ := bbox_contains hb _ hab.2
  obtain ⟨t, t0, t1, hx, hy⟩ := hp
  unfold Box.Contains
  rw [hx, hy]
  refine ⟨?_, ?_, ?_, ?_⟩ <;> nlinarith

/-- C36 for the method of lines and polygons, which compares bounding boxes first. -/
theorem C36_method_partial (ra : Bool) (as : List Pt) (rb : Bool) (bs : List Pt) (ha : NoSelfCrossing ra as)
    (hb : NoSelfCrossing rb bs) (hm : ProperMeetings ra as rb bs) :
    ∃ r, geomIntersects ra as rb bs = .ok r ∧ (r = true ↔ Meet ra as rb bs) := by
  have hex := C36_exact_partial ra as rb bs ha hb hm
  unfold geomIntersects
  cases h1 : bbox as with
  | none => exact hex
  | some a =>
    cases h2 : bbox bs with
    | none => exact hex
    | some b =>
      simp only
      by_cases ho : bboxesOverlap a b = true
      · rw [if_pos ho]; exact hex
      · rw [if_neg ho]
        refine ⟨false, rfl, ?_⟩
        simp only [Bool.false_eq_true, false_iff]
        rintro ⟨s, t, p, i1, i2, k1, k2⟩
        apply ho
        rw [(C33_bboxes_overlap_exact a b (C33_bbox_wf as a h1) (C33_bbox_wf bs b h2)).1]
        exact ⟨p, segment_in_box h1 i1 k1, segment_in_box h2 i2 k2⟩

/-! ### Violations -/

/-- The property is false of lines that cross themselves: this pair has a proper crossing, and the answer is
False. -/
theorem C36_violated_self_crossing :
    ∃ as bs : List Pt, (∃ s t p, IsSegment false as s ∧ IsSegment false bs t ∧ s.Interior p ∧ t.Interior p ∧ ¬ s.Parallel t) ∧
      geomIntersects false as false bs = .ok false := by
  refine ⟨[⟨8, 6⟩, ⟨1, 0⟩, ⟨0, 9⟩, ⟨8, 2⟩], [⟨10, 5⟩, ⟨7, 3⟩, ⟨5, 1⟩],
    ⟨⟨⟨0, 9⟩, ⟨8, 2⟩⟩, ⟨⟨7, 3⟩, ⟨5, 1⟩⟩, ⟨104 / 15, 44 / 15⟩, Or.inl ⟨2, rfl, rfl⟩, Or.inl ⟨1, rfl, rfl⟩, ?_, ?_, ?_⟩, by decide +kernel⟩
  · exact ⟨13 / 15, by norm_num, by norm_num, by norm_num, by norm_num⟩
  · exact ⟨1 / 30, by norm_num, by norm_num, by norm_num, by norm_num⟩
  · unfold Seg.Parallel; norm_num

theorem key_lt_of_x {e f : Ev} (h : e.x < f.x) : e.key < f.key := by
  unfold Ev.key
  rw [List.cons_lt_cons_iff]
  exact Or.inl h

theorem not_key_lt_of_x {e f : Ev} (h : e.x < f.x) : ¬ f.key < e.key := fun hc => by
  have := key_lt_x hc
  linarith

theorem touch_queue (a p b : Pt) (h1 : a.x < p.x) (h2 : p.x < b.x) :
    batches (eventQueue [⟨⟨a, p⟩, false⟩, ⟨⟨b, p⟩, true⟩]) =
      [[⟨a.x, ⟨⟨a, p⟩, false⟩, 0⟩], [⟨p.x, ⟨⟨a, p⟩, false⟩, 1⟩, ⟨p.x, ⟨⟨b, p⟩, true⟩, 0⟩], [⟨b.x, ⟨⟨b, p⟩, true⟩, 1⟩]] := by
  have e1 : evsOf ⟨⟨a, p⟩, false⟩ = [⟨a.x, ⟨⟨a, p⟩, false⟩, 0⟩, ⟨p.x, ⟨⟨a, p⟩, false⟩, 1⟩] := by
    rw [evsOf, if_neg (by simpa using h1.ne), if_pos h1]
  have e2 : evsOf ⟨⟨b, p⟩, true⟩ = [⟨p.x, ⟨⟨b, p⟩, true⟩, 0⟩, ⟨b.x, ⟨⟨b, p⟩, true⟩, 1⟩] := by
    rw [evsOf, if_neg (by simpa using h2.ne'), if_neg (by simpa using h2.le)]
  have h3 : ¬ (⟨p.x, ⟨⟨b, p⟩, true⟩, 0⟩ : Ev).key < (⟨p.x, ⟨⟨a, p⟩, false⟩, 1⟩ : Ev).key := by
    simp only [Ev.key, List.cons_lt_cons_iff, lt_irrefl, false_or, true_and]
    rintro (h | h)
    · linarith
    · linarith [h.1]
  have hq : eventQueue [⟨⟨a, p⟩, false⟩, ⟨⟨b, p⟩, true⟩] = [⟨a.x, ⟨⟨a, p⟩, false⟩, 0⟩, ⟨p.x, ⟨⟨a, p⟩, false⟩, 1⟩,
      ⟨p.x, ⟨⟨b, p⟩, true⟩, 0⟩, ⟨b.x, ⟨⟨b, p⟩, true⟩, 1⟩] := by
    simp only [eventQueue, List.flatMap_cons, List.flatMap_nil, e1, e2, List.append_nil, List.cons_append, List.nil_append, List.foldl_cons,
      List.foldl_nil, evInsert]
    rw [if_neg (not_key_lt_of_x (by simpa using h1))]
    simp only [evInsert]
    rw [if_neg (not_key_lt_of_x (by simpa using h1))]
    simp only [evInsert]
    rw [if_neg h3]
    simp only [evInsert]
    rw [if_neg (not_key_lt_of_x (by simp; linarith))]
    rw [if_neg (not_key_lt_of_x (by simp; linarith)), if_neg (not_key_lt_of_x (by simp; linarith))]
  rw [hq]
  simp [batches, h1.ne, h2.ne]

theorem touch_end (A B : CSeg) (hne : A ≠ B) (q : List CSeg) (hq : q = [A, B] ∨ q = [B, A]) (e f : Ev) (he : e.seg = A)
    (hk : e.kind = 1) (hf : f.seg = B) (hk' : f.kind = 0) :
    ∃ l r, endLoop [A] [e, f] q = .ok ([B], [(e, l, r), (f, none, none)]) ∧ (l = none ∨ r = none) := by
  subst he hf
  rcases hq with rfl | rfl
  · refine ⟨none, some f.seg, ?_, Or.inl rfl⟩
    simp [endLoop, walk, leftof, rightof, hk, hk', hne, hne.symm]
  · refine ⟨some f.seg, none, ?_, Or.inr rfl⟩
    simp [endLoop, walk, leftof, rightof, hk, hk', hne, hne.symm]

/-- Lines that touch end to end are reported not to intersect, whatever their directions: one that comes to a
point from the left, and one that comes to it from the right.  The brute-force search reports the point. -/
theorem C36_violated_touch (a p b : Pt) (h1 : a.x < p.x) (h2 : p.x < b.x) (hn : ¬ (⟨a, p⟩ : Seg).Parallel ⟨b, p⟩) :
    Meet false [a, p] false [b, p] ∧ allIntersections false [a, p] false [b, p] = [p] ∧
      geomIntersects false [a, p] false [b, p] = .ok false := by
  have on1 : (⟨a, p⟩ : Seg).On p := ⟨1, zero_le_one, le_refl _, by ring, by ring⟩
  have on2 : (⟨b, p⟩ : Seg).On p := ⟨1, zero_le_one, le_refl _, by ring, by ring⟩
  refine ⟨⟨⟨a, p⟩, ⟨b, p⟩, p, Or.inl ⟨0, rfl, rfl⟩, Or.inl ⟨0, rfl, rfl⟩, on1, on2⟩, ?_, ?_⟩
  · have : intersection ⟨a, p⟩ ⟨b, p⟩ = some p := (C34_intersection_exact _ _ _).2
      ⟨hn, on1, on2, fun h => by simp only at h; rw [h] at h1; exact lt_irrefl _ h1, fun h => by simp only at h; rw [h] at h2; exact lt_irrefl _ h2⟩
    simp [allIntersections, segsOf, this]
  · have hi : intersects false [a, p] false [b, p] = .ok false := by
      have hc : colored false [a, p] false [b, p] = [⟨⟨a, p⟩, false⟩, ⟨⟨b, p⟩, true⟩] := by simp [colored, segsOf]
      rw [intersects, hc, touch_queue a p b h1 h2]
      obtain ⟨A, hA⟩ : ∃ A : CSeg, A = ⟨⟨a, p⟩, false⟩ := ⟨_, rfl⟩
      obtain ⟨B, hB⟩ : ∃ B : CSeg, B = ⟨⟨b, p⟩, true⟩ := ⟨_, rfl⟩
      have hne : A ≠ B := by rw [hA, hB]; simp
      rw [← hA, ← hB]
      have b1 : endLoop (endingSegs [⟨a.x, A, 0⟩]) [⟨a.x, A, 0⟩] (beginLoop [⟨a.x, A, 0⟩] []) = .ok ([A], [(⟨a.x, A, 0⟩, none, none)]) := by
        simp [endLoop, beginLoop, sweepInsert]
      have b2 : beginLoop [⟨p.x, A, 1⟩, ⟨p.x, B, 0⟩] [A] = [A, B] ∨ beginLoop [⟨p.x, A, 1⟩, ⟨p.x, B, 0⟩] [A] = [B, A] := by
        have hb : beginLoop [⟨p.x, A, 1⟩, ⟨p.x, B, 0⟩] [A] =
            if height A p.x < height B p.x ∨ (height A p.x = height B p.x ∧ slope A < slope B) then [A, B] else [B, A] := rfl
        rw [hb]
        by_cases hc : height A p.x < height B p.x ∨ (height A p.x = height B p.x ∧ slope A < slope B)
        · rw [if_pos hc]; exact Or.inl rfl
        · rw [if_neg hc]; exact Or.inr rfl
      have b2' : endingSegs [⟨p.x, A, 1⟩, ⟨p.x, B, 0⟩] = [A] := by simp [endingSegs]
      obtain ⟨l, r, hl, hlr⟩ := touch_end A B hne _ b2 ⟨p.x, A, 1⟩ ⟨p.x, B, 0⟩ rfl rfl rfl rfl
      have b3 : endLoop (endingSegs [⟨b.x, B, 1⟩]) [⟨b.x, B, 1⟩] (beginLoop [⟨b.x, B, 1⟩] [B]) = .ok ([], [(⟨b.x, B, 1⟩, none, none)]) := by
        simp [endLoop, endingSegs, beginLoop, walk, leftof, rightof]
      have c2 : (l.bind fun s => r.map fun t => cIntersects s t).getD false = false := by
        rcases hlr with rfl | rfl
        · rfl
        · cases l <;> rfl
      rw [sweep, b1]
      simp only [checkLoop, check, leftof, rightof]
      simp only [sweep, b2', hl, b3]
      simp [checkLoop, check, leftof, rightof, c2]
    unfold geomIntersects
    cases bbox [a, p] with
    | none => exact hi
    | some x =>
      cases bbox [b, p] with
      | none => exact hi
      | some y =>
        simp only
        by_cases ho : bboxesOverlap x y = true
        · rw [if_pos ho]; exact hi
        · rw [if_neg ho]

/-- Two vertical lines that overlap are reported not to intersect. -/
theorem C36_violated_vertical_overlap :
    ∃ as bs : List Pt, (∃ s t p, IsSegment false as s ∧ IsSegment false bs t ∧ s.Interior p ∧ t.Interior p) ∧
      geomIntersects false as false bs = .ok false := by
  refine ⟨[⟨0, 0⟩, ⟨0, 2⟩], [⟨0, 1⟩, ⟨0, 3⟩],
    ⟨⟨⟨0, 0⟩, ⟨0, 2⟩⟩, ⟨⟨0, 1⟩, ⟨0, 3⟩⟩, ⟨0, 3 / 2⟩, Or.inl ⟨0, rfl, rfl⟩, Or.inl ⟨0, rfl, rfl⟩, ?_, ?_⟩, by decide +kernel⟩
  · exact ⟨3 / 4, by norm_num, by norm_num, by norm_num, by norm_num⟩
  · exact ⟨1 / 4, by norm_num, by norm_num, by norm_num, by norm_num⟩

/-! A walk that is still going on after as many rounds as there are segments never ends. -/

theorem walk_good {next : CSeg → Except Err (Option CSeg)} {E : List CSeg} (f : CSeg → CSeg)
    (n : Nat) (s : CSeg) (h : ∀ k < n, f^[k] s ∈ E ∧ next (f^[k] s) = .ok (some (f^[k + 1] s))) :
    walk next E n (some s) = .error .other := by
  induction n generalizing s with
  | zero => rfl
  | succ n ih =>
    obtain ⟨h1, h2⟩ := h 0 (by omega)
    simp only [Function.iterate_zero, id_eq, zero_add, Function.iterate_one] at h1 h2
    rw [walk, if_pos h1, h2]
    exact ih (f s) fun k hk => h (k + 1) (by omega)

theorem walk_bad {next : CSeg → Except Err (Option CSeg)} (hn : ∀ s, next s ≠ .error .other) {E : List CSeg} (f : CSeg → CSeg)
    (hf : ∀ s t, next s = .ok (some t) → f s = t) (n : Nat) (s : CSeg) (h : walk next E (n + 1) (some s) = .error .other) :
    ∀ k < n, f^[k] s ∈ E ∧ next (f^[k] s) = .ok (some (f^[k + 1] s)) := by
  induction n generalizing s with
  | zero => intro k hk; omega
  | succ n ih =>
    rw [walk] at h
    split at h
    swap
    · cases h
    next hE =>
    cases hs : next s with
    | error e =>
      rw [hs] at h
      simp only [Except.error.injEq] at h
      exact absurd (h ▸ hs) (hn s)
    | ok o =>
      rw [hs] at h
      cases o with
      | none => simp [walk] at h
      | some t =>
        have hft := hf s t hs
        subst hft
        have hk := ih (f s) h
        intro k hkn
        cases k with
        | zero => exact ⟨hE, hs⟩
        | succ k => exact hk k (by omega)

theorem walk_forever (q E : List CSeg) (s : CSeg) (h : walk (rightof q) E (q.length + 2) (some s) = .error .other) :
    ∀ fuel, walk (rightof q) E fuel (some s) = .error .other := by
  obtain ⟨f, hf⟩ : ∃ f : CSeg → CSeg, ∀ s t, rightof q s = .ok (some t) → f s = t := by
    refine ⟨fun s => q.getD (q.idxOf s + 1) s, ?_⟩
    intro s t h
    rw [rightof] at h
    split at h
    · injection h with h
      split at h
      · cases h
      · simp [List.getD, h]
    · cases h
  have hbad := walk_bad (fun s hs => by rw [rightof] at hs; split at hs <;> cases hs) f hf (q.length + 1) s h
  have hmem : ∀ k < q.length + 1, f^[k] s ∈ q := by
    intro k hk
    have := (hbad k hk).2
    rw [rightof] at this
    split at this
    · assumption
    · cases this
  obtain ⟨i, j, hij, hj, heq⟩ : ∃ i j, i < j ∧ j < q.length + 1 ∧ f^[i] s = f^[j] s := by
    by_contra hc
    push Not at hc
    have hnd : ((List.range (q.length + 1)).map fun k => f^[k] s).Nodup := by
      rw [List.nodup_map_iff_inj_on List.nodup_range]
      intro a ha b hb hab
      rw [List.mem_range] at ha hb
      rcases Nat.lt_trichotomy a b with h1 | h1 | h1
      · exact absurd hab (hc a b h1 hb)
      · exact h1
      · exact absurd hab.symm (hc b a h1 ha)
    have hsub : ((List.range (q.length + 1)).map fun k => f^[k] s) ⊆ q := by
      intro t ht
      obtain ⟨k, hk, rfl⟩ := List.mem_map.1 ht
      exact hmem k (List.mem_range.1 hk)
    have := (List.subperm_of_subset hnd hsub).length_le
    simp at this
  have hall : ∀ k, f^[k] s ∈ E ∧ rightof q (f^[k] s) = .ok (some (f^[k + 1] s)) := by
    intro k
    induction k using Nat.strong_induction_on with
    | _ k ih =>
      by_cases hk : k < q.length + 1
      · exact hbad k hk
      · have e1 : ∀ m, j ≤ m → f^[m] s = f^[m - j + i] s := by
          intro m hm
          conv_lhs => rw [show m = (m - j) + j by omega, Function.iterate_add_apply, ← heq, ← Function.iterate_add_apply]
        rw [e1 k (by omega), e1 (k + 1) (by omega), show k + 1 - j + i = (k - j + i) + 1 by omega]
        exact ih (k - j + i) (by omega)
  intro fuel
  exact walk_good f fuel s fun k _ => hall k

/-- A line that retraces one of its segments makes the test loop for ever, even if nothing comes near it: the
loop over ending segments of this pair has not ended after the number of rounds after which, by `walk_forever`,
it never ends. -/
theorem C36_violated_retrace :
    ∃ as bs : List Pt, geomIntersects false as false bs = .error .other ∧
      ∃ (q E : List CSeg) (s : CSeg), (∀ t ∈ q, t ∈ colored false as false bs) ∧
        ∀ fuel, walk (rightof q) E fuel (some s) = .error .other := by
  refine ⟨[⟨0, 0⟩, ⟨2, 2⟩, ⟨0, 0⟩, ⟨2, 2⟩], [⟨1, 0⟩, ⟨3, 0⟩], by decide +kernel,
    [⟨⟨⟨1, 0⟩, ⟨3, 0⟩⟩, true⟩, ⟨⟨⟨2, 2⟩, ⟨0, 0⟩⟩, false⟩, ⟨⟨⟨0, 0⟩, ⟨2, 2⟩⟩, false⟩, ⟨⟨⟨0, 0⟩, ⟨2, 2⟩⟩, false⟩],
    [⟨⟨⟨0, 0⟩, ⟨2, 2⟩⟩, false⟩, ⟨⟨⟨0, 0⟩, ⟨2, 2⟩⟩, false⟩, ⟨⟨⟨2, 2⟩, ⟨0, 0⟩⟩, false⟩], ⟨⟨⟨0, 0⟩, ⟨2, 2⟩⟩, false⟩, by decide +kernel, ?_⟩
  exact walk_forever _ _ _ (by decide +kernel)

/-! ### Instances -/

theorem noSelfCrossing_two (a b : Pt) : NoSelfCrossing false [a, b] := by
  simp [NoSelfCrossing, segsOf]

/-- A roof crossed twice by a slanting line. -/
example : NoSelfCrossing false [⟨0, 0⟩, ⟨2, 4⟩, ⟨4, 0⟩] ∧ NoSelfCrossing false [⟨0, 1⟩, ⟨4, 2⟩] ∧
    ProperMeetings false [⟨0, 0⟩, ⟨2, 4⟩, ⟨4, 0⟩] false [⟨0, 1⟩, ⟨4, 2⟩] ∧
    geomIntersects false [⟨0, 0⟩, ⟨2, 4⟩, ⟨4, 0⟩] false [⟨0, 1⟩, ⟨4, 2⟩] = .ok true ∧
    Meet false [⟨0, 0⟩, ⟨2, 4⟩, ⟨4, 0⟩] false [⟨0, 1⟩, ⟨4, 2⟩] := by
  have h1 : NoSelfCrossing false [⟨0, 0⟩, ⟨2, 4⟩, ⟨4, 0⟩] := by
    simp only [NoSelfCrossing, segsOf, Bool.false_eq_true, if_false, List.tail_cons, List.zipWith_cons_cons,
      List.zipWith_nil_right, List.pairwise_cons, List.mem_singleton, List.not_mem_nil, false_imp_iff, implies_true,
      List.Pairwise.nil, and_true, forall_eq]
    rintro ⟨px, py⟩ ⟨u, u0, u1, ux, uy⟩ ⟨v, v0, v1, vx, vy⟩
    simp only at ux uy vx vy
    have e1 : px = 2 := by linarith
    have e2 : py = 4 := by linarith
    rw [e1, e2]
    exact ⟨Or.inr rfl, Or.inl rfl⟩
  have h2 := noSelfCrossing_two ⟨0, 1⟩ ⟨4, 2⟩
  have h3 : ProperMeetings false [⟨0, 0⟩, ⟨2, 4⟩, ⟨4, 0⟩] false [⟨0, 1⟩, ⟨4, 2⟩] := by
    intro s t p hs ht
    rw [← mem_segsOf] at hs ht
    simp only [segsOf, Bool.false_eq_true, if_false, List.tail_cons, List.zipWith_cons_cons, List.zipWith_nil_right,
      List.mem_singleton, List.mem_cons, List.not_mem_nil, or_false] at hs ht
    subst ht
    rintro ⟨u, u0, u1, ux, uy⟩ ⟨v, v0, v1, vx, vy⟩
    rcases hs with rfl | rfl <;> simp only at ux uy vx vy <;>
      refine ⟨⟨?_, ?_⟩, ?_, ?_⟩ <;> rintro rfl <;> simp only at ux uy vx vy <;> linarith
  obtain ⟨r, hr, hiff⟩ := C36_method_partial _ _ _ _ h1 h2 h3
  have hk : geomIntersects false [⟨0, 0⟩, ⟨2, 4⟩, ⟨4, 0⟩] false [⟨0, 1⟩, ⟨4, 2⟩] = .ok true := by decide +kernel
  refine ⟨h1, h2, h3, hk, hiff.1 ?_⟩
  rw [hk] at hr
  injection hr with hr
  exact hr.symm

example : NoRepeat true [⟨0, 0⟩, ⟨4, 0⟩, ⟨4, 3⟩] ∧ NoRepeat false [⟨1, 5⟩, ⟨1, -1⟩, ⟨3, 3⟩] ∧
    intersects true [⟨0, 0⟩, ⟨4, 0⟩, ⟨4, 3⟩] false [⟨1, 5⟩, ⟨1, -1⟩, ⟨3, 3⟩] = .ok true := by
  refine ⟨?_, ?_, by decide +kernel⟩ <;> unfold NoRepeat <;> decide +kernel

/-- The roof and a line that crosses its left side and ends in its last vertex. -/
example : intersects false [⟨0, 0⟩, ⟨2, 4⟩, ⟨4, 0⟩] false [⟨0, 2⟩, ⟨4, 0⟩] = .ok true := by
  have h1 : NoSelfCrossing false [⟨0, 0⟩, ⟨2, 4⟩, ⟨4, 0⟩] := by
    simp only [NoSelfCrossing, segsOf, Bool.false_eq_true, if_false, List.tail_cons, List.zipWith_cons_cons,
      List.zipWith_nil_right, List.pairwise_cons, List.mem_singleton, List.not_mem_nil, false_imp_iff, implies_true,
      List.Pairwise.nil, and_true, forall_eq]
    rintro ⟨px, py⟩ ⟨u, u0, u1, ux, uy⟩ ⟨v, v0, v1, vx, vy⟩
    simp only at ux uy vx vy
    have e1 : px = 2 := by linarith
    have e2 : py = 4 := by linarith
    rw [e1, e2]
    exact ⟨Or.inr rfl, Or.inl rfl⟩
  have h2 := noSelfCrossing_two ⟨0, 2⟩ ⟨4, 0⟩
  refine C36_first_contact_partial _ _ _ _ (noRepeat_of_simple h1) (noRepeat_of_simple h2) ⟨⟨0, 0⟩, ⟨2, 4⟩⟩ ⟨⟨0, 2⟩, ⟨4, 0⟩⟩
    ⟨4 / 5, 8 / 5⟩ (Or.inl ⟨0, rfl, rfl⟩) (Or.inl ⟨0, rfl, rfl⟩) ⟨2 / 5, by norm_num, by norm_num, by norm_num, by norm_num⟩
    ⟨1 / 5, by norm_num, by norm_num, by norm_num, by norm_num⟩ (h1.imp fun h p _ => h p) (h2.imp fun h p _ => h p) ?_
  intro s t p hX hs ht
  rw [← mem_segsOf] at hs ht
  simp only [segsOf, Bool.false_eq_true, if_false, List.tail_cons, List.zipWith_cons_cons, List.zipWith_nil_right,
    List.mem_singleton, List.mem_cons, List.not_mem_nil, or_false] at hs ht
  subst ht
  rintro ⟨u, u0, u1, ux, uy⟩ ⟨v, v0, v1, vx, vy⟩
  simp only at hX
  rcases hs with rfl | rfl <;> simp only at ux uy vx vy
  · refine ⟨⟨?_, ?_⟩, ?_, ?_⟩ <;> rintro rfl <;> simp only at ux uy vx vy <;> linarith
  · exfalso; linarith

/-- Two sides of a roof, drawn from the eaves to the ridge. -/
example : geomIntersects false [⟨0, 0⟩, ⟨2, 4⟩] false [⟨4, 0⟩, ⟨2, 4⟩] = .ok false :=
  (C36_violated_touch ⟨0, 0⟩ ⟨2, 4⟩ ⟨4, 0⟩ (by norm_num) (by norm_num) (by unfold Seg.Parallel; norm_num)).2.2

end Karta.Vec.Sweep
