import Verif.Geod.HullSphGeom
import Verif.Vec.HullProps

/-!
# C139: the convex hull on the sphere
-/

namespace Karta.Geod.HullSph
open Karta Karta.Geod Karta.Geod.Sphere Karta.Geod.Cross
open Karta.Vec (Pt P2)
open Karta.Vec.Hull (readPts ptAt leftmost turn Half Beyond Turns AllLeft Conv popPts scanPts ptAt_mem mem_ptAt half_or_eq
  IsLeftmost leftmost_unique leftmost_spec split_sorted scan_all turn_L_left turn_L_right turns_split allLeft_split)

/-! ## Specification -/

/-- Spec: the convex cone of the directions of the vertices in `H`. -/
inductive Cone (H : List Pt) : V3 → Prop
  | base {p : Pt} : p ∈ H → Cone H (vec p)
  | scale {v : V3} (t : ℝ) : 0 ≤ t → Cone H v → Cone H ⟨t * v.x, t * v.y, t * v.z⟩
  | add {v w : V3} : Cone H v → Cone H w → Cone H ⟨v.x + w.x, v.y + w.y, v.z + w.z⟩

/-- Spec: every vertex is to the left of, or on, the great circle from `L` through `p`. -/
def OnLowestArc (P : List Pt) (L p : Pt) : Prop := p ∈ P ∧ p ≠ L ∧ ∀ r ∈ P, 0 ≤ orient L p r

/-- Spec: the spherical polygon with vertices `H` encloses `P`: its vertices are points of `P`, it turns left at every vertex
(strictly, except at the last vertex and at the first one), and every point of `P` is on the inner side of the great circle
of every side, including the closing one, and its direction is a combination of those of the vertices. -/
structure Encloses (H P : List Pt) : Prop where
  vertices : ∀ h ∈ H, h ∈ P
  left_turns : ∀ (l : List Pt) (a b p : Pt) (r : List Pt), H = l ++ a :: b :: p :: r → 0 < orient a b p
  inside : ∀ (l : List Pt) (a b : Pt) (r : List Pt), H ++ H.head?.toList = l ++ a :: b :: r → ∀ p ∈ P, 0 ≤ orient a b p
  combination : ∀ p ∈ P, Cone H (vec p)

/-! ## The sorted list -/

instance : Std.Total azLe := ⟨fun a b => by
  unfold azLe
  rcases lt_trichotomy a.1 b.1 with h | h | h
  · exact Or.inl (Or.inl h)
  · rcases Nat.le_total a.2 b.2 with h' | h'
    · exact Or.inl (Or.inr ⟨h, h'⟩)
    · exact Or.inr (Or.inr ⟨h.symm, h'⟩)
  · exact Or.inr (Or.inl h)⟩

instance : IsTrans _ azLe := ⟨fun a b c h1 h2 => by
  unfold azLe at *
  rcases h1 with h1 | ⟨h1, h1'⟩ <;> rcases h2 with h2 | ⟨h2, h2'⟩
  · left; exact lt_trans h1 h2
  · left; rw [← h2]; exact h1
  · left; rw [h1]; exact h2
  · right; exact ⟨h1.trans h2, by omega⟩⟩

theorem azLe_le {a b : ℝ × Nat} (h : azLe a b) : a.1 ≤ b.1 := by
  rcases h with h | ⟨h, _⟩
  · exact h.le
  · exact h.le

theorem az_sorted (P : List Pt) : (azimuthIndices P).Pairwise azLe := by
  classical
  unfold azimuthIndices
  exact List.pairwise_insertionSort _ _

/-- Key of a vertex. -/
noncomputable def key (L p : Pt) : ℝ := Real.pi / 2 - azimuthSph L p

theorem az_mem {P : List Pt} {e : ℝ × Nat} : e ∈ azimuthIndices P ↔
    e.2 < P.length ∧ e.2 ≠ leftmost P ∧ e.1 = key (ptAt P (leftmost P)) (ptAt P e.2) := by
  classical
  unfold azimuthIndices
  rw [List.mem_insertionSort, List.mem_map]
  constructor
  · rintro ⟨i, hi, rfl⟩
    have : i < P.length ∧ i ≠ leftmost P := by simpa using hi
    exact ⟨this.1, this.2, rfl⟩
  · rintro ⟨h1, h2, h3⟩
    exact ⟨e.2, by simp [h1, h2], by unfold key at h3; rw [← h3]⟩

theorem az_nodup (P : List Pt) : ((azimuthIndices P).map Prod.snd).Nodup := by
  classical
  unfold azimuthIndices
  have h := (List.perm_insertionSort azLe (((List.range P.length).filter fun i => i ≠ leftmost P).map fun i =>
      (Real.pi / 2 - azimuthSph (ptAt P (leftmost P)) (ptAt P i), i))).map Prod.snd
  rw [h.nodup_iff, List.map_map]
  have : (Prod.snd ∘ fun i => (Real.pi / 2 - azimuthSph (ptAt P (leftmost P)) (ptAt P i), i)) = id := rfl
  rw [this, List.map_id]
  exact List.nodup_range.filter _

theorem dedup_rest (P : List Pt) (L : Pt) (az : List (ℝ × Nat)) : ∀ (es : List (ℝ × Nat)) (i last : Nat)
    (lastpt : Pt) (indices : List Nat), (∀ e ∈ es, e.1 ≠ (az.getD last (0, 0)).1) →
    dedup P L az es i last lastpt indices = indices ++ es.map Prod.snd
  | [], _, _, _, _, _ => by simp [dedup]
  | e :: es, i, last, lastpt, indices, h => by
    rw [dedup, if_neg (h e (by simp)), dedup_rest P L az es (i + 1) last lastpt _ (fun x hx => h x (by simp [hx]))]
    simp

theorem dedup_ties (P : List Pt) (L : Pt) (az rest : List (ℝ × Nat)) (k0 : ℝ) :
    ∀ (ties : List (ℝ × Nat)) (i last : Nat) (lastpt : Pt) (g : Nat),
    (∀ e ∈ rest, e.1 ≠ k0) → (∀ e ∈ ties, e.1 = k0) → (az.getD last (0, 0)).1 = k0 →
    (∀ j < ties.length, (az.getD (i + j) (0, 0)).1 = k0) →
    ∃ g', (g' = g ∨ ∃ e ∈ ties, g' = e.2) ∧
      dedup P L az (ties ++ rest) i last lastpt [g] = g' :: rest.map Prod.snd
  | [], i, last, lastpt, g, hr, _, hl, _ => by
    refine ⟨g, Or.inl rfl, ?_⟩
    rw [List.nil_append, dedup_rest P L az rest i last lastpt [g] (fun e he => by rw [hl]; exact hr e he)]
    rfl
  | e :: ties, i, last, lastpt, g, hr, ht, hl, hi => by
    have he : e.1 = (az.getD last (0, 0)).1 := by rw [hl]; exact ht e (by simp)
    have hi' : ∀ j < ties.length, (az.getD (i + 1 + j) (0, 0)).1 = k0 := by
      intro j hj
      have := hi (j + 1) (by simp; omega)
      rwa [show i + 1 + j = i + (j + 1) by omega]
    rw [List.cons_append, dedup, if_pos he]
    by_cases hd : distSph L.x L.y (ptAt P e.2).x (ptAt P e.2).y > distSph L.x L.y lastpt.x lastpt.y
    · rw [if_pos hd]
      have h0 := hi 0 (by simp)
      rw [Nat.add_zero] at h0
      obtain ⟨g', hg', eq⟩ := dedup_ties P L az rest k0 ties (i + 1) i (ptAt P i) e.2 hr
        (fun x hx => ht x (by simp [hx])) h0 hi'
      refine ⟨g', Or.inr ?_, eq⟩
      rcases hg' with rfl | ⟨x, hx, rfl⟩
      · exact ⟨e, by simp, rfl⟩
      · exact ⟨x, by simp [hx], rfl⟩
    · rw [if_neg hd]
      obtain ⟨g', hg', eq⟩ := dedup_ties P L az rest k0 ties (i + 1) last lastpt g hr
        (fun x hx => ht x (by simp [hx])) hl hi'
      refine ⟨g', ?_, eq⟩
      rcases hg' with rfl | ⟨x, hx, rfl⟩
      · exact Or.inl rfl
      · exact Or.inr ⟨x, by simp [hx], rfl⟩

/-! ## The scan on the sphere and on the plane -/

/-- A vertex as the scan may meet it. -/
def Seen (c : ℝ) (L p : Pt) : Prop := Near c p ∧ (p = L ∨ Half L p)

theorem left_eq {c : ℝ} {L a b i : Pt} (ha : Seen c L a) (hb : Seen c L b) (hi : Seen c L i) (hab : a ≠ b)
    (hbi : b ≠ i ∨ i = L) : isleftSph a b i = Vec.Hull.isleft (gnom c a) (gnom c b) (gnom c i) := by
  by_cases h : b = i
  · have hL : i = L := hbi.resolve_left (fun h' => h' h)
    have haL : Half L a := ha.2.resolve_left (fun h' => hab (by rw [h', h, hL]))
    rw [h, hL]
    rw [h, hL] at hb
    rw [isleft_copy hb.1 ha.1 haL]
    symm
    have : turn (gnom c a) (gnom c L) (gnom c L) = 0 := Vec.Hull.turn_self_right _ _
    unfold Vec.Hull.isleft
    rw [this]; simp
  · have := isleft_iff ha.1 hb.1 hi.1 hab h
    rw [← turn_pos_iff ha.1 hb.1 hi.1] at this
    rw [Bool.eq_iff_iff, this]
    unfold Vec.Hull.isleft
    simp

theorem popWhile_img {c : ℝ} {L : Pt} {P : List Pt} {i : Nat} (hi : Seen c L (ptAt P i)) : ∀ st : List Nat,
    st.IsChain (fun j k => ptAt P j ≠ ptAt P k) → (∀ j ∈ st, Seen c L (ptAt P j)) →
    (ptAt P i = L ∨ ∀ j ∈ st, ptAt P j ≠ ptAt P i) →
    (popWhile P i st).map (List.map fun j => gnom c (ptAt P j)) = popPts (gnom c (ptAt P i)) (st.map fun j => gnom c (ptAt P j))
  | [], _, _, _ => rfl
  | [_], _, _, _ => rfl
  | b :: a :: st, hc, hs, hd => by
    rw [List.isChain_cons_cons] at hc
    simp only [popWhile, List.map_cons, popPts]
    rw [left_eq (hs a (by simp)) (hs b (by simp)) hi hc.1.symm (hd.symm.imp (fun h => h b (by simp)) id)]
    by_cases h : Vec.Hull.isleft (gnom c (ptAt P a)) (gnom c (ptAt P b)) (gnom c (ptAt P i)) = true
    · rw [if_pos h, if_pos h]; rfl
    · rw [if_neg h, if_neg h]
      exact popWhile_img hi (a :: st) hc.2 (fun j hj => hs j (by simp at hj ⊢; tauto))
        (hd.imp id fun h j hj => h j (by simp at hj ⊢; tauto))

theorem popWhile_ok {P : List Pt} {i : Nat} : ∀ st st' : List Nat, popWhile P i st = .ok st' →
    ∃ (d : List Nat) (a b : Nat) (r : List Nat), st = d ++ st' ∧ st' = b :: a :: r ∧
      isleftSph (ptAt P a) (ptAt P b) (ptAt P i) = true
  | [], _, h => by simp [popWhile] at h
  | [_], _, h => by simp [popWhile] at h
  | b :: a :: st, st', h => by
    rw [popWhile] at h
    by_cases hl : isleftSph (ptAt P a) (ptAt P b) (ptAt P i) = true
    · rw [if_pos hl] at h; cases h
      exact ⟨[], a, b, st, rfl, rfl, hl⟩
    · rw [if_neg hl] at h
      obtain ⟨d, a', b', r, h1, h2, h3⟩ := popWhile_ok (a :: st) st' h
      exact ⟨b :: d, a', b', r, by rw [h1]; rfl, h2, h3⟩

theorem scan_img {c : ℝ} {L : Pt} {P : List Pt} : ∀ (is st : List Nat),
    st.IsChain (fun j k => ptAt P j ≠ ptAt P k) → (∀ j ∈ st, Seen c L (ptAt P j)) → (∀ i ∈ is, Seen c L (ptAt P i)) →
    (∀ i ∈ is, ptAt P i = L ∨ ∀ j ∈ st, ptAt P j ≠ ptAt P i) → is.Pairwise (fun i j => ptAt P i = ptAt P j → ptAt P j = L) →
    (scan P is st).map (List.map fun j => gnom c (ptAt P j)) =
      scanPts (is.map fun j => gnom c (ptAt P j)) (st.map fun j => gnom c (ptAt P j))
  | [], _, _, _, _, _, _ => rfl
  | i :: is, st, hc, hs, hi, hd, hp => by
    have h := popWhile_img (hi i (by simp)) st hc hs (hd i (by simp))
    rw [scan, List.map_cons, scanPts, ← h]
    cases hw : popWhile P i st with
    | error e => rfl
    | ok st' =>
      obtain ⟨d, a, b, r, h1, h2, h3⟩ := popWhile_ok st st' hw
      have hp' := List.pairwise_cons.mp hp
      have hsub : ∀ j ∈ st', j ∈ st := fun j hj => by rw [h1]; simp [hj]
      have hc' : st'.IsChain (fun j k => ptAt P j ≠ ptAt P k) := by rw [h1] at hc; exact hc.right_of_append
      refine scan_img is (i :: st') ?_ ?_ (fun j hj => hi j (by simp [hj])) ?_ hp'.2
      · rw [h2, List.isChain_cons_cons]
        rw [h2] at hc' hsub
        refine ⟨fun hib => ?_, hc'⟩
        have hiL : ptAt P i = L := (hd i (by simp)).resolve_right fun h => h b (hsub b (by simp)) hib.symm
        have hab := (List.isChain_cons_cons.mp hc').1
        have haH : Half L (ptAt P a) := (hs a (hsub a (by simp))).2.resolve_left fun h => hab (by rw [← hib, hiL, h])
        rw [← hib, hiL, isleft_copy (by rw [← hiL]; exact (hi i (by simp)).1) (hs a (hsub a (by simp))).1 haH] at h3
        cases h3
      · intro j hj
        rcases List.mem_cons.mp hj with rfl | hj
        · exact hi j (by simp)
        · exact hs j (hsub j hj)
      · intro k hk
        rcases hd k (by simp [hk]) with h | h
        · exact Or.inl h
        · by_cases hkL : ptAt P k = L
          · exact Or.inl hkL
          · right
            intro j hj
            rcases List.mem_cons.mp hj with rfl | hj
            · exact fun he => hkL (hp'.1 k hk he)
            · exact h j (hsub j hj)

theorem scan_sub {P : List Pt} : ∀ (is st st' : List Nat), scan P is st = .ok st' →
    (∀ j ∈ st', j ∈ is ∨ j ∈ st) ∧ st'.getLast? = st.getLast?
  | [], st, st', h => by simp only [scan, Except.ok.injEq] at h; subst h; exact ⟨fun j hj => Or.inr hj, rfl⟩
  | i :: is, st, st', h => by
    rw [scan] at h
    cases hw : popWhile P i st with
    | error e => rw [hw] at h; cases h
    | ok st1 =>
      rw [hw] at h
      obtain ⟨d, a, b, r, h1, h2, _⟩ := popWhile_ok st st1 hw
      obtain ⟨g1, g2⟩ := scan_sub is (i :: st1) st' h
      refine ⟨fun j hj => ?_, ?_⟩
      · rcases g1 j hj with h | h
        · exact Or.inl (by simp [h])
        · rcases List.mem_cons.mp h with rfl | h
          · exact Or.inl (by simp)
          · exact Or.inr (by rw [h1]; simp [h])
      · rw [g2, h1, h2, List.getLast?_append]
        cases hl : (b :: a :: r).getLast? with
        | none => simp at hl
        | some x => rw [List.getLast?_cons_cons, hl]; rfl

/-! ## From the plane back to the sphere -/

theorem gnom_vec {c : ℝ} {p : Pt} (hp : Near c p) :
    (vec p).x = Real.cos (rad p.y) * Real.cos (rad ((p.x : ℝ) - c)) * (Real.cos (rad c) - (gnom c p).x * Real.sin (rad c)) ∧
    (vec p).y = Real.cos (rad p.y) * Real.cos (rad ((p.x : ℝ) - c)) * ((gnom c p).x * Real.cos (rad c) + Real.sin (rad c)) ∧
    (vec p).z = Real.cos (rad p.y) * Real.cos (rad ((p.x : ℝ) - c)) * (gnom c p).y := by
  obtain ⟨h1, h2, h3⟩ := vec_rot c p
  have := hp.cosLat.ne'
  have := hp.cosLon.ne'
  rw [h1, h2, h3]
  unfold gnom
  simp only [Real.tan_eq_sin_div_cos]
  refine ⟨?_, ?_, ?_⟩ <;> field_simp

/-- The direction of a point of the plane. -/
noncomputable def lift (c : ℝ) (q : P2 ℝ) : V3 :=
  ⟨Real.cos (rad c) - q.x * Real.sin (rad c), q.x * Real.cos (rad c) + Real.sin (rad c), q.y⟩

theorem cone_lift {c : ℝ} {H : List Pt} (hH : ∀ h ∈ H, Near c h) {q : P2 ℝ}
    (h : Conv (fun q => q ∈ H.map (gnom c)) q) : Cone H (lift c q) := by
  induction h with
  | @base q hq =>
    obtain ⟨p, hp, rfl⟩ := List.mem_map.mp hq
    obtain ⟨e1, e2, e3⟩ := gnom_vec (hH p hp)
    have hpos := scale_pos (hH p hp)
    have := Cone.scale (Real.cos (rad p.y) * Real.cos (rad ((p.x : ℝ) - c)))⁻¹ (by positivity) (Cone.base hp)
    rw [e1, e2, e3] at this
    unfold lift
    rwa [inv_mul_cancel_left₀ hpos.ne', inv_mul_cancel_left₀ hpos.ne', inv_mul_cancel_left₀ hpos.ne'] at this
  | @mix p q t _ _ h0 h1 ih1 ih2 =>
    have := Cone.add (Cone.scale (1 - t) (by linarith) ih1) (Cone.scale t h0 ih2)
    unfold lift at this ⊢
    simp only at this ⊢
    convert this using 2 <;> ring

theorem cone_vec {c : ℝ} {H : List Pt} (hH : ∀ h ∈ H, Near c h) {p : Pt} (hp : Near c p)
    (h : Conv (fun q => q ∈ H.map (gnom c)) (gnom c p)) : Cone H (vec p) := by
  have := Cone.scale (Real.cos (rad p.y) * Real.cos (rad ((p.x : ℝ) - c))) (scale_pos hp).le (cone_lift hH h)
  obtain ⟨e1, e2, e3⟩ := gnom_vec hp
  unfold lift at this
  simp only at this
  rw [← e1, ← e2, ← e3] at this
  exact this

/-- From the stack of the scan to the specification. -/
theorem encloses_of_stack {c : ℝ} {P st : List Pt} {L : Pt} (hP : ∀ p ∈ P, Near c p) (h1 : Turns (st.map (gnom c)))
    (h2 : ∀ p ∈ P, AllLeft (gnom c p) (st.map (gnom c)))
    (h3 : ∀ top, st.head? = some top → ∀ p ∈ P, 0 ≤ turn (gnom c top) (gnom c L) (gnom c p))
    (h4 : ∀ p ∈ P, Conv (fun q => q ∈ st.map (gnom c)) (gnom c p))
    (h5 : ∀ p ∈ st, p ∈ P) (h6 : st.getLast? = some L) : Encloses st.reverse P := by
  have hL : L ∈ st := List.mem_of_getLast? h6
  refine ⟨by simpa using h5, ?_, ?_, ?_⟩
  · intro l a b p r e
    have : st = r.reverse ++ p :: b :: a :: l.reverse := by
      rw [← List.reverse_reverse st, e]; simp
    have hm : a ∈ st ∧ b ∈ st ∧ p ∈ st := by rw [this]; simp
    rw [this] at h1
    simp only [List.map_append, List.map_cons] at h1
    exact (turn_pos_iff (hP a (h5 a hm.1)) (hP b (h5 b hm.2.1)) (hP p (h5 p hm.2.2))).mp (turns_split _ _ _ _ _ h1)
  · intro l a b r e p hp
    rw [List.head?_reverse, h6] at e
    simp only [Option.toList_some] at e
    rcases List.eq_nil_or_concat r with hr | ⟨r', x, hr⟩
    · rw [hr] at e
      have e' : st.reverse ++ [L] = (l ++ [a]) ++ [b] := by rw [e]; simp
      obtain ⟨e1, e2⟩ := List.append_inj' e' rfl
      simp only [List.cons.injEq, and_true] at e2
      have hst : st = (l ++ [a]).reverse := by rw [← e1, List.reverse_reverse]
      have hm : a ∈ st := by rw [hst]; simp
      rw [← e2, ← turn_nonneg_iff (hP a (h5 a hm)) (hP L (h5 L hL)) (hP p hp)]
      apply h3 a _ p hp
      rw [hst]; simp
    · rw [hr] at e
      have e' : st.reverse ++ [L] = (l ++ a :: b :: r') ++ [x] := by rw [e]; simp
      obtain ⟨e1, _⟩ := List.append_inj' e' rfl
      have hst : st = r'.reverse ++ b :: a :: l.reverse := by
        rw [← List.reverse_reverse st, e1]; simp
      have hm : a ∈ st ∧ b ∈ st := by rw [hst]; simp
      have := h2 p hp
      rw [hst] at this
      simp only [List.map_append, List.map_cons] at this
      exact (turn_nonneg_iff (hP a (h5 a hm.1)) (hP b (h5 b hm.2)) (hP p hp)).mp (allLeft_split _ _ _ _ this)
  · intro p hp
    refine cone_vec (c := c) (fun h hh => hP h (h5 h (by simpa using hh))) (hP p hp) ?_
    refine Vec.Hull.conv_mono (fun q hq => .base ?_) (h4 p hp)
    simpa using hq

/-- Core of C139. -/
theorem hull_core {ring : Bool} {ps : List Pt} {P : List Pt} (hP : P = readPts ring ps) {c : ℝ} (hN : ∀ p ∈ P, Near c p)
    {L : Pt} (hL : IsLeftmost P L) (hnc : ∃ p ∈ P, ∃ q ∈ P, orient L p q ≠ 0)
    (hdup : ∀ i j, i < j → j < P.length → ptAt P i = ptAt P j → ptAt P i = L ∨ OnLowestArc P L (ptAt P i)) :
    ∃ (H : List Pt) (g : Pt), convexHull ring ps = .ok H ∧ OnLowestArc P L g ∧
      ∀ Q : List Pt, (∀ p, p ∈ Q ↔ p ∈ P ∧ (OnLowestArc P L p → p = g)) → Encloses H Q := by
  have hne : P ≠ [] := by intro e; rw [e] at hL; simp [IsLeftmost] at hL
  obtain ⟨hlt, hbey⟩ := leftmost_spec hne
  have hLe := leftmost_unique hL
  rw [hLe] at hbey
  have hNL : Near c L := hN L hL.1
  have oLr : ∀ p : Pt, orient L p L = 0 := fun p => by unfold orient cross V3.dot; ring
  have oLl : ∀ p : Pt, orient L L p = 0 := fun p => by unfold orient cross V3.dot; ring
  have hkey : ∀ {p : Pt}, p ∈ P → Half L p → key L p < Real.pi / 2 := by
    intro p hp h
    have := (az_half hNL (hN p hp) h).1
    unfold key; linarith
  have hkeyL : key L L = Real.pi / 2 := by unfold key; rw [azimuth_self hNL, sub_zero]
  -- every vertex other than the leftmost is listed
  have hlist : ∀ p ∈ P, p ≠ L → ∃ e ∈ azimuthIndices P, ptAt P e.2 = p ∧ e.1 = key L p ∧ Half L p := by
    intro p hp hpL
    obtain ⟨i, hi, rfl⟩ := mem_ptAt hp
    refine ⟨(key L (ptAt P i), i), az_mem.mpr ⟨hi, ?_, by rw [hLe]⟩, rfl, rfl, (half_or_eq (hbey i hi)).resolve_right hpL⟩
    rintro h
    simp only at h
    rw [h] at hpL
    exact hpL hLe
  have hentry : ∀ e ∈ azimuthIndices P, e.2 < P.length ∧ e.1 = key L (ptAt P e.2) ∧
      (Half L (ptAt P e.2) ∨ ptAt P e.2 = L) := by
    intro e he
    obtain ⟨a, _, d⟩ := az_mem.mp he
    rw [hLe] at d
    exact ⟨a, d, half_or_eq (hbey _ a)⟩
  have hsort := az_sorted P
  have hnod := az_nodup P
  cases haz : azimuthIndices P with
  | nil =>
    exfalso
    obtain ⟨p, hp, q, hq, hpq⟩ := hnc
    have : p = L := by
      by_contra h
      obtain ⟨e, he, _⟩ := hlist p hp h
      rw [haz] at he; simp at he
    apply hpq; rw [this]; exact oLl _
  | cons e es =>
    rw [haz] at hsort hlist hentry hnod
    have hmemP : ∀ x ∈ e :: es, ptAt P x.2 ∈ P := fun x hx => ptAt_mem (hentry x hx).1
    have hs' := List.pairwise_cons.mp hsort
    have hkmin : ∀ x ∈ e :: es, e.1 ≤ x.1 := by
      intro x hx
      rcases List.mem_cons.mp hx with rfl | hx
      · exact le_rfl
      · exact azLe_le (hs'.1 x hx)
    have hord2 : ∀ p q : Pt, p ∈ P → q ∈ P → Half L p → Half L q → key L p ≤ key L q → 0 ≤ orient L p q := by
      intro p q hp hq h1 h2 h
      exact orient_of_az hNL (hN p hp) (hN q hq) h1 h2 (by unfold key at h; linarith)
    have heH : Half L (ptAt P e.2) := by
      refine (hentry e (by simp)).2.2.resolve_right fun heL => ?_
      have hk : e.1 = Real.pi / 2 := by rw [(hentry e (by simp)).2.1, heL, hkeyL]
      have hall : ∀ p ∈ P, p = L := by
        intro p hp
        by_contra h
        obtain ⟨x, hx, _, hk', hh⟩ := hlist p hp h
        have h1 := hkmin x hx
        have h2 := hkey hp hh
        rw [hk, hk'] at h1
        linarith
      obtain ⟨p, hp, q, hq, hpq⟩ := hnc
      apply hpq; rw [hall p hp]; exact oLl _
    have hee : e.1 < Real.pi / 2 := by
      rw [(hentry e (by simp)).2.1]; exact hkey (hmemP e (by simp)) heH
    have hray : ∀ x ∈ e :: es, x.1 = e.1 → OnLowestArc P L (ptAt P x.2) := by
      intro x hx hxe
      have hxH : Half L (ptAt P x.2) := by
        refine (hentry x hx).2.2.resolve_right fun h => ?_
        have h1 := (hentry x hx).2.1
        rw [h, hkeyL, hxe] at h1
        linarith
      refine ⟨hmemP x hx, (half_ne' hxH).symm, ?_⟩
      intro r hr
      by_cases hrL : r = L
      · rw [hrL]; exact (oLr _).ge
      · obtain ⟨f, hf, _, hfk, hfH⟩ := hlist r hr hrL
        apply hord2 _ _ (hmemP x hx) hr hxH hfH
        rw [← hfk, ← (hentry x hx).2.1, hxe]
        exact hkmin f hf
    -- the three groups
    obtain ⟨ties, rest, hes, hties, hrest⟩ : ∃ ties rest : List (ℝ × Nat), es = ties ++ rest ∧
        (∀ x ∈ ties, x.1 = e.1) ∧ ∀ x ∈ rest, x.1 ≠ e.1 := by
      classical
      refine ⟨_, _, split_sorted (R := fun x y => azLe x y ∧ azLe e x) (fun x => decide (x.1 = e.1)) ?_ es
        (hs'.2.imp_of_mem fun hx _ h => ⟨h, hs'.1 _ hx⟩), ?_, ?_⟩
      · intro x y hxy hy
        simp only [decide_eq_true_eq] at hy ⊢
        have h1 := azLe_le hxy.1
        have h2 := azLe_le hxy.2
        rw [hy] at h1
        exact le_antisymm h1 h2
      · intro x hx; simpa using (List.mem_filter.mp hx).2
      · intro x hx; simpa using (List.mem_filter.mp hx).2
    have hrsort : rest.Pairwise azLe := by
      have := hs'.2
      rw [hes] at this
      exact (List.pairwise_append.mp this).2.1
    have hrmem : ∀ x ∈ rest, x ∈ e :: es := fun x hx => by rw [hes]; simp [hx]
    obtain ⟨Hs, D, hrs, hHs, hD⟩ : ∃ Hs D : List (ℝ × Nat), rest = Hs ++ D ∧
        (∀ x ∈ Hs, x.1 < Real.pi / 2) ∧ ∀ x ∈ D, ¬ x.1 < Real.pi / 2 := by
      classical
      refine ⟨_, _, split_sorted (R := azLe) (fun x => decide (x.1 < Real.pi / 2)) ?_ rest hrsort, ?_, ?_⟩
      · intro x y hxy hy
        simp only [decide_eq_true_eq] at hy ⊢
        have h1 := azLe_le hxy
        linarith
      · intro x hx; simpa using (List.mem_filter.mp hx).2
      · intro x hx; simpa using (List.mem_filter.mp hx).2
    have hHmem : ∀ x ∈ Hs, x ∈ rest := fun x hx => by rw [hrs]; simp [hx]
    have hDmem : ∀ x ∈ D, x ∈ rest := fun x hx => by rw [hrs]; simp [hx]
    have hHhalf : ∀ x ∈ Hs, Half L (ptAt P x.2) := by
      intro x hx
      have hx' := hrmem x (hHmem x hx)
      refine (hentry x hx').2.2.resolve_right fun h => ?_
      have h1 := (hentry x hx').2.1
      rw [h, hkeyL] at h1
      have := hHs x hx
      rw [h1] at this
      exact lt_irrefl _ this
    have hDL : ∀ x ∈ D, ptAt P x.2 = L := by
      intro x hx
      have hx' := hrmem x (hDmem x hx)
      refine (hentry x hx').2.2.resolve_left fun h => hD x hx ?_
      rw [(hentry x hx').2.1]
      exact hkey (hmemP x hx') h
    -- the first group gives `g`
    obtain ⟨g, hgor, hded⟩ := dedup_ties P (ptAt P (leftmost P)) (e :: es) rest e.1 ties 1 0 (ptAt P (leftmost P)) e.2
      hrest hties (by simp) (by
        intro j hj
        have : (e :: es).getD (1 + j) (0, 0) = ties[j] := by
          rw [Nat.add_comm, List.getD_cons_succ, hes, List.getD_eq_getElem?_getD, List.getElem?_append_left hj,
            List.getElem?_eq_getElem hj, Option.getD_some]
        rw [this]
        exact hties _ (List.getElem_mem hj))
    obtain ⟨ge, hge, hgee, hgeg⟩ : ∃ ge ∈ e :: es, ge.1 = e.1 ∧ ge.2 = g := by
      rcases hgor with rfl | ⟨x, hx, rfl⟩
      · exact ⟨e, by simp, rfl, rfl⟩
      · exact ⟨x, by rw [hes]; simp [hx], hties x hx, rfl⟩
    have hgray : OnLowestArc P L (ptAt P g) := hgeg ▸ hray ge hge hgee
    have hgH : Half L (ptAt P g) := by
      rw [← hgeg] at hgray ⊢
      exact (hentry ge hge).2.2.resolve_right hgray.2.1
    have hgk : key L (ptAt P g) = e.1 := by
      rw [← hgeg, ← (hentry ge hge).2.1, hgee]
    rw [← hes] at hded
    -- there is a second direction
    have hall : ∀ p ∈ P, p = L ∨ (p ≠ L ∧ key L p = e.1 ∧ OnLowestArc P L p) ∨ ∃ x ∈ Hs, ptAt P x.2 = p := by
      intro p hp
      by_cases h : p = L
      · exact Or.inl h
      · obtain ⟨x, hx, hxp, _, hh⟩ := hlist p hp h
        by_cases hxe : x.1 = e.1
        · refine Or.inr (Or.inl ⟨h, ?_, by rw [← hxp]; exact hray x hx hxe⟩)
          rw [← hxp, ← (hentry x hx).2.1, hxe]
        · rcases List.mem_cons.mp hx with rfl | hx
          · exact absurd rfl hxe
          · rw [hes] at hx
            rcases List.mem_append.mp hx with hx | hx
            · exact absurd (hties x hx) hxe
            · rw [hrs] at hx
              rcases List.mem_append.mp hx with hx | hx
              · exact Or.inr (Or.inr ⟨x, hx, hxp⟩)
              · exact absurd (by rw [← hxp]; exact hDL x hx) h
    obtain ⟨h1, Hs', hHs1⟩ : ∃ h1 Hs', Hs = h1 :: Hs' := by
      cases hh : Hs with
      | cons a l => exact ⟨a, l, rfl⟩
      | nil =>
        exfalso
        have h2 : ∀ p ∈ P, p = L ∨ (Half L p ∧ key L p = e.1) := by
          intro p hp
          rcases hall p hp with h | ⟨h, hk, _⟩ | ⟨x, hx, _⟩
          · exact Or.inl h
          · obtain ⟨_, _, _, _, hh⟩ := hlist p hp h
            exact Or.inr ⟨hh, hk⟩
          · rw [hh] at hx; simp at hx
        obtain ⟨p, hp, q, hq, hpq⟩ := hnc
        apply hpq
        rcases h2 p hp with hp' | hp'
        · rw [hp']; exact oLl _
        · rcases h2 q hq with hq' | hq'
          · rw [hq']; exact oLr _
          · have a1 := hord2 p q hp hq hp'.1 hq'.1 (by rw [hp'.2, hq'.2])
            have a2 := hord2 q p hq hp hq'.1 hp'.1 (by rw [hp'.2, hq'.2])
            have : orient L q p = - orient L p q := by unfold orient cross V3.dot; ring
            linarith
    -- run the scan on points
    have hHsort : Hs.Pairwise azLe := by
      rw [hrs] at hrsort; exact (List.pairwise_append.mp hrsort).1
    have hHN : ∀ x ∈ Hs, Near c (ptAt P x.2) := fun x hx => hN _ (hmemP x (hrmem x (hHmem x hx)))
    have hgN : Near c (ptAt P g) := hN _ hgray.1
    have hstr0 : ∀ x ∈ Hs, 0 < orient L (ptAt P g) (ptAt P x.2) := by
      intro x hx
      have hx' := hrmem x (hHmem x hx)
      refine lt_of_le_of_ne ?_ fun h => ?_
      · apply hord2 _ _ hgray.1 (hmemP x hx') hgH (hHhalf x hx)
        rw [← (hentry x hx').2.1, hgk]
        exact hkmin x hx'
      · have := az_of_orient hNL hgN (hHN x hx) hgH (hHhalf x hx) h.symm
        apply hrest x (hHmem x hx)
        rw [(hentry x hx').2.1, ← hgk]
        unfold key
        rw [this]
    have hord : ((h1 :: Hs').map fun x => gnom c (ptAt P x.2)).Pairwise fun x y => 0 ≤ turn (gnom c L) x y := by
      rw [← hHs1, List.pairwise_map]
      refine hHsort.imp_of_mem fun {x y} hx hy h => ?_
      rw [turn_nonneg_iff hNL (hHN x hx) (hHN y hy)]
      apply hord2 _ _ (hmemP x (hrmem x (hHmem x hx))) (hmemP y (hrmem y (hHmem y hy))) (hHhalf x hx) (hHhalf y hy)
      rw [← (hentry x (hrmem x (hHmem x hx))).2.1, ← (hentry y (hrmem y (hHmem y hy))).2.1]
      exact azLe_le h
    have hstr : ∀ p ∈ (h1 :: Hs').map (fun x => gnom c (ptAt P x.2)), 0 < turn (gnom c L) (gnom c (ptAt P g)) p := by
      intro p hp
      rw [← hHs1] at hp
      obtain ⟨x, hx, rfl⟩ := List.mem_map.mp hp
      exact (turn_pos_iff hNL hgN (hHN x hx)).mpr (hstr0 x hx)
    have hhalfs : ∀ p ∈ (h1 :: Hs').map (fun x => gnom c (ptAt P x.2)), Half (gnom c L) p := by
      intro p hp
      rw [← hHs1] at hp
      obtain ⟨x, hx, rfl⟩ := List.mem_map.mp hp
      exact gnom_half hNL (hHN x hx) (hHhalf x hx)
    rw [List.map_cons] at hord hstr hhalfs
    obtain ⟨st, hst, s1, s2, s3, s4, s5, s6⟩ := scan_all D.length (gnom_half hNL hgN hgH) hhalfs hord hstr
    -- positions
    have hnotray : ∀ x ∈ Hs, ¬ OnLowestArc P L (ptAt P x.2) := by
      intro x hx hr
      have h2 := hr.2.2 _ hgray.1
      have h3 := hstr0 x hx
      have e' : orient L (ptAt P x.2) (ptAt P g) = - orient L (ptAt P g) (ptAt P x.2) := by
        unfold orient cross V3.dot; ring
      linarith
    have hdis : ∀ x ∈ Hs, ∀ y ∈ Hs, x.2 ≠ y.2 → ptAt P x.2 ≠ ptAt P y.2 := by
      intro x hx y hy hxy he
      have hxl := (hentry x (hrmem x (hHmem x hx))).1
      have hyl := (hentry y (hrmem y (hHmem y hy))).1
      rcases Nat.lt_or_gt_of_ne hxy with h | h
      · rcases hdup _ _ h hyl he with h' | h'
        · exact half_ne' (hHhalf x hx) h'.symm
        · exact hnotray x hx h'
      · rcases hdup _ _ h hxl he.symm with h' | h'
        · exact half_ne' (hHhalf y hy) h'.symm
        · exact hnotray y hy h'
    have hgdis : ∀ x ∈ Hs, ptAt P g ≠ ptAt P x.2 := by
      intro x hx he
      have := hstr0 x hx
      rw [← he] at this
      have e' : orient L (ptAt P g) (ptAt P g) = 0 := by unfold orient cross V3.dot; ring
      linarith
    have hHnod : (Hs.map Prod.snd).Nodup := by
      rw [hes, hrs, List.map_cons, List.map_append, List.map_append] at hnod
      exact (List.nodup_append.mp (List.nodup_append.mp (List.nodup_cons.mp hnod).2).2.1).1
    have hPmem : ∀ p, (p ∈ P ∧ (OnLowestArc P L p → p = ptAt P g)) ↔
        p ∈ (Hs.map fun x => ptAt P x.2) ++ [ptAt P g, L] := by
      intro p
      have hiff : p ∈ (Hs.map fun x => ptAt P x.2) ++ [ptAt P g, L] ↔
          (∃ x ∈ Hs, ptAt P x.2 = p) ∨ p = ptAt P g ∨ p = L := by
        simp only [List.mem_append, List.mem_map, List.mem_cons, List.not_mem_nil, or_false]
      rw [hiff]
      constructor
      · rintro ⟨hp, hpg⟩
        rcases hall p hp with h | ⟨_, _, h⟩ | h
        · exact Or.inr (Or.inr h)
        · exact Or.inr (Or.inl (hpg h))
        · exact Or.inl h
      · rintro (⟨x, hx, rfl⟩ | rfl | rfl)
        · exact ⟨hmemP x (hrmem x (hHmem x hx)), fun hr => absurd hr (hnotray x hx)⟩
        · exact ⟨hgray.1, fun _ => rfl⟩
        · exact ⟨hL.1, fun h => absurd rfl h.2.1⟩
    have himg : ∀ p, p ∈ (Hs.map fun x => ptAt P x.2) ++ [ptAt P g, L] →
        gnom c p ∈ gnom c (ptAt P h1.2) :: Hs'.map (fun x => gnom c (ptAt P x.2)) ++ [gnom c (ptAt P g), gnom c L] := by
      intro p hp
      rw [← List.map_cons (f := fun x : ℝ × Nat => gnom c (ptAt P x.2)), ← hHs1]
      have := List.mem_map_of_mem (f := gnom c) hp
      rw [List.map_append, List.map_map] at this
      exact this
    have hscan := scan_img (c := c) (L := L) (P := P) ((Hs' ++ D).map Prod.snd) [h1.2, g, leftmost P] (by
        rw [List.isChain_cons_cons, List.isChain_cons_cons]
        refine ⟨(hgdis h1 (by rw [hHs1]; simp)).symm, ?_, List.isChain_singleton _⟩
        rw [hLe]; exact hgray.2.1) (by
        intro j hj
        simp only [List.mem_cons, List.not_mem_nil, or_false] at hj
        rcases hj with rfl | rfl | rfl
        · exact ⟨hHN h1 (by rw [hHs1]; simp), Or.inr (hHhalf h1 (by rw [hHs1]; simp))⟩
        · exact ⟨hgN, Or.inr hgH⟩
        · rw [hLe]; exact ⟨hNL, Or.inl rfl⟩) (by
        intro i hi
        obtain ⟨x, hx, rfl⟩ := List.mem_map.mp hi
        rcases List.mem_append.mp hx with hx | hx
        · exact ⟨hHN x (by rw [hHs1]; simp [hx]), Or.inr (hHhalf x (by rw [hHs1]; simp [hx]))⟩
        · rw [hDL x hx]; exact ⟨hNL, Or.inl rfl⟩) (by
        intro i hi
        obtain ⟨x, hx, rfl⟩ := List.mem_map.mp hi
        rcases List.mem_append.mp hx with hx | hx
        · right
          have hxH : x ∈ Hs := by rw [hHs1]; simp [hx]
          intro j hj
          simp only [List.mem_cons, List.not_mem_nil, or_false] at hj
          rcases hj with rfl | rfl | rfl
          · refine hdis h1 (by rw [hHs1]; simp) x hxH ?_
            rw [hHs1, List.map_cons, List.nodup_cons] at hHnod
            exact fun h => hHnod.1 (by rw [h]; exact List.mem_map_of_mem hx)
          · exact hgdis x hxH
          · rw [hLe]; exact half_ne' (hHhalf x hxH)
        · exact Or.inl (hDL x hx)) (by
        rw [List.map_append, List.pairwise_append]
        refine ⟨?_, ?_, ?_⟩
        · rw [hHs1, List.map_cons, List.nodup_cons] at hHnod
          refine hHnod.2.imp_of_mem fun {i j} hi hj hij he => ?_
          obtain ⟨x, hx, rfl⟩ := List.mem_map.mp hi
          obtain ⟨y, hy, rfl⟩ := List.mem_map.mp hj
          exact absurd he (hdis x (by rw [hHs1]; simp [hx]) y (by rw [hHs1]; simp [hy]) hij)
        · rw [List.pairwise_map]
          exact List.pairwise_of_forall_mem_list fun x hx y hy _ => hDL y hy
        · intro i _ j hj _
          obtain ⟨y, hy, rfl⟩ := List.mem_map.mp hj
          exact hDL y hy)
    have hDmap : (D.map Prod.snd).map (fun j => gnom c (ptAt P j)) = List.replicate D.length (gnom c L) := by
      rw [List.map_map, List.eq_replicate_iff]
      refine ⟨by simp, ?_⟩
      intro p hp
      obtain ⟨x, hx, rfl⟩ := List.mem_map.mp hp
      simp only [Function.comp, hDL x hx]
    rw [List.map_append, List.map_append, hDmap, List.map_map] at hscan
    simp only [List.map_cons, List.map_nil, hLe] at hscan
    have hst' : scanPts (List.map ((fun j => gnom c (ptAt P j)) ∘ Prod.snd) Hs' ++ List.replicate D.length (gnom c L))
        [gnom c (ptAt P h1.2), gnom c (ptAt P g), gnom c L] = .ok st := hst
    rw [hst'] at hscan
    cases hsc : scan P (Hs'.map Prod.snd ++ D.map Prod.snd) [h1.2, g, leftmost P] with
    | error x => rw [hsc] at hscan; cases hscan
    | ok idx =>
      rw [hsc] at hscan
      have hidx : idx.map (fun j => gnom c (ptAt P j)) = st := by
        simp only [Except.map, Except.ok.injEq] at hscan; exact hscan
      have hmapmap : (idx.map (ptAt P)).map (gnom c) = st := by rw [List.map_map]; exact hidx
      have hsub := scan_sub _ _ _ hsc
      have hidxQ : ∀ p ∈ idx.map (ptAt P), p ∈ (Hs.map fun x => ptAt P x.2) ++ [ptAt P g, L] := by
        intro p hp
        obtain ⟨j, hj, rfl⟩ := List.mem_map.mp hp
        rcases hsub.1 j hj with h | h
        · rcases List.mem_append.mp h with h | h
          · obtain ⟨x, hx, rfl⟩ := List.mem_map.mp h
            rw [List.mem_append]; left
            exact List.mem_map.mpr ⟨x, by rw [hHs1]; simp [hx], rfl⟩
          · obtain ⟨x, hx, rfl⟩ := List.mem_map.mp h
            rw [hDL x hx]; simp
        · simp only [List.mem_cons, List.not_mem_nil, or_false] at h
          rcases h with rfl | rfl | rfl
          · rw [List.mem_append]; left
            exact List.mem_map.mpr ⟨h1, by rw [hHs1]; simp, rfl⟩
          · simp
          · rw [hLe]; simp
      have hlast : (idx.map (ptAt P)).getLast? = some L := by
        rw [List.getLast?_map, hsub.2]; simp [hLe]
      refine ⟨(idx.map (ptAt P)).reverse, ptAt P g, ?_, hgray, fun Q hQ => encloses_of_stack (c := c) (L := L)
        (fun p hp => hN p ((hQ p).mp hp).1) (by rw [hmapmap]; exact s1)
        (fun p hp => by rw [hmapmap]; exact s2 _ (himg p ((hPmem p).mp ((hQ p).mp hp))))
        (fun top ht p hp => s3 (gnom c top) (by rw [← hmapmap, List.head?_map, ht]; rfl) _
          (himg p ((hPmem p).mp ((hQ p).mp hp))))
        (fun p hp => by rw [hmapmap]; exact s4 _ (himg p ((hPmem p).mp ((hQ p).mp hp))))
        (fun p hp => (hQ p).mpr ((hPmem p).mpr (hidxQ p hp))) hlast⟩
      have hch : convexhull ring ps = .ok idx.reverse := by
        unfold convexhull
        simp only [← hP, haz]
        rw [if_neg hne, hded, hrs, hHs1]
        simp only [List.cons_append, List.map_cons, List.map_append]
        cases hk : Hs'.map Prod.snd ++ D.map Prod.snd with
        | nil =>
          rw [hk] at hsc
          simp only [scan, Except.ok.injEq] at hsc
          rw [← hsc]; rfl
        | cons a l =>
          rw [hk] at hsc
          simp only [hsc]
      unfold convexHull
      rw [hch, ← hP]
      simp only [Except.map, List.map_reverse]

theorem count_of_eq {P : List Pt} {i j : Nat} (hij : i < j) (hj : j < P.length) (h : ptAt P i = ptAt P j) :
    2 ≤ P.count (ptAt P i) := by
  have hi : i < P.length := by omega
  have ei : ptAt P i = P[i] := by unfold ptAt; rw [List.getD_eq_getElem?_getD, List.getElem?_eq_getElem hi, Option.getD_some]
  have ej : ptAt P j = P[j] := by unfold ptAt; rw [List.getD_eq_getElem?_getD, List.getElem?_eq_getElem hj, Option.getD_some]
  rw [← List.duplicate_iff_two_le_count, List.duplicate_iff_exists_distinct_get]
  exact ⟨⟨i, hi⟩, ⟨j, hj⟩, hij, by simp [ei], by rw [h]; simp [ej]⟩

/-! ## C139 -/

/-- **C139 (part).**  When all vertices are within 90 degrees of longitude of one meridian and none is a pole, they are not all on
one great circle through the leftmost one, the lowest great circle from it carries a single position, and no other position
than these two is repeated, the polygon encloses every vertex.  Missing: the cases of the other theorems below. -/
theorem C139_encloses_partial {ring : Bool} {ps : List Pt} {c : ℝ} (hN : ∀ p ∈ readPts ring ps, Near c p) {L : Pt}
    (hL : IsLeftmost (readPts ring ps) L) (hnc : ∃ p ∈ readPts ring ps, ∃ q ∈ readPts ring ps, orient L p q ≠ 0)
    (hdup : ∀ p, 2 ≤ (readPts ring ps).count p → p = L ∨ OnLowestArc (readPts ring ps) L p)
    (hlow : ∀ p q, OnLowestArc (readPts ring ps) L p → OnLowestArc (readPts ring ps) L q → p = q) :
    ∃ H : List Pt, convexHull ring ps = .ok H ∧ Encloses H (readPts ring ps) := by
  obtain ⟨H, g, h1, h2, h3⟩ := hull_core rfl hN hL hnc fun i j hij hj he => hdup _ (count_of_eq hij hj he)
  exact ⟨H, h1, h3 _ fun p => ⟨fun hp => ⟨hp, fun h => hlow p g h h2⟩, fun h => h.1⟩⟩

/-- **C139 (part).**  Without the condition on the lowest great circle the polygon still turns left throughout and encloses every
vertex off that circle, and it keeps one vertex on it. -/
theorem C139_all_but_first_arc_partial {ring : Bool} {ps : List Pt} {c : ℝ} (hN : ∀ p ∈ readPts ring ps, Near c p) {L : Pt}
    (hL : IsLeftmost (readPts ring ps) L) (hnc : ∃ p ∈ readPts ring ps, ∃ q ∈ readPts ring ps, orient L p q ≠ 0)
    (hdup : ∀ p, 2 ≤ (readPts ring ps).count p → p = L ∨ OnLowestArc (readPts ring ps) L p) :
    ∃ (H : List Pt) (g : Pt), convexHull ring ps = .ok H ∧ OnLowestArc (readPts ring ps) L g ∧
      ∀ Q : List Pt, (∀ p, p ∈ Q ↔ p ∈ readPts ring ps ∧ (OnLowestArc (readPts ring ps) L p → p = g)) → Encloses H Q :=
  hull_core rfl hN hL hnc fun _ _ hij hj he => hdup _ (count_of_eq hij hj he)

theorem vec_00 : vec ⟨0, 0⟩ = ⟨1, 0, 0⟩ := by
  rw [vec_eq]; simp

theorem vec_90 : vec ⟨90, 0⟩ = ⟨0, 1, 0⟩ := by
  rw [vec_eq]
  have : Real.pi * 90 / 180 = Real.pi / 2 := by ring
  simp [this]

theorem orient_eq (q : Pt) : orient ⟨0, 0⟩ ⟨90, 0⟩ q = Real.sin (Real.pi * q.y / 180) := by
  unfold orient
  rw [vec_00, vec_90, vec_eq]
  unfold cross V3.dot
  simp

/-- A ring around a part of the northern hemisphere, with a vertex inside. -/
example : ∃ H : List Pt, convexHull true [⟨0, 0⟩, ⟨90, 0⟩, ⟨70, 40⟩, ⟨40, 20⟩, ⟨20, 50⟩] = .ok H ∧
    Encloses H (readPts true [⟨0, 0⟩, ⟨90, 0⟩, ⟨70, 40⟩, ⟨40, 20⟩, ⟨20, 50⟩]) := by
  have hpos : ∀ y : ℚ, 0 < y → y < 90 → 0 < Real.sin (Real.pi * y / 180) := fun y h1 h2 =>
    sin_pos_deg (by exact_mod_cast h1) (by have : (y : ℝ) < 90 := by exact_mod_cast h2
                                           linarith)
  have hmem : ∀ p ∈ readPts true [⟨0, 0⟩, ⟨90, 0⟩, ⟨70, 40⟩, ⟨40, 20⟩, ⟨20, 50⟩],
      p = ⟨0, 0⟩ ∨ p = ⟨90, 0⟩ ∨ (0 < p.y ∧ p.y < 90) := by decide +kernel
  have hray : ∀ p, OnLowestArc (readPts true [⟨0, 0⟩, ⟨90, 0⟩, ⟨70, 40⟩, ⟨40, 20⟩, ⟨20, 50⟩]) ⟨0, 0⟩ p → p = ⟨90, 0⟩ := by
    rintro p ⟨h1, h2, h3⟩
    rcases hmem p h1 with h | h | h
    · exact absurd h h2
    · exact h
    · have := h3 ⟨90, 0⟩ (by decide +kernel)
      rw [show orient ⟨0, 0⟩ p ⟨90, 0⟩ = - orient ⟨0, 0⟩ ⟨90, 0⟩ p by unfold orient cross V3.dot; ring, orient_eq] at this
      have := hpos _ h.1 h.2
      linarith
  refine C139_encloses_partial (c := 45) ?_ (L := ⟨0, 0⟩) (by unfold IsLeftmost; decide +kernel)
    ⟨⟨90, 0⟩, by decide +kernel, ⟨70, 40⟩, by decide +kernel, ?_⟩ ?_ (fun p q hp hq => (hray p hp).trans (hray q hq).symm)
  · intro p hp
    have : 0 ≤ p.x ∧ p.x ≤ 90 ∧ 0 ≤ p.y ∧ p.y < 90 := by revert p; decide +kernel
    have h1 : (0 : ℝ) ≤ p.x := by exact_mod_cast this.1
    have h2 : (p.x : ℝ) ≤ 90 := by exact_mod_cast this.2.1
    refine ⟨abs_lt.mpr ⟨by linarith, by linarith⟩, abs_lt.mpr ⟨by linarith, this.2.2.2⟩⟩
  · rw [orient_eq]; exact (hpos 40 (by norm_num) (by norm_num)).ne'
  · intro p hp
    left
    have hm : p ∈ readPts true [⟨0, 0⟩, ⟨90, 0⟩, ⟨70, 40⟩, ⟨40, 20⟩, ⟨20, 50⟩] := List.count_pos_iff.mp (by omega)
    revert hp
    revert p
    decide +kernel
/-! ### A vertex that is repeated -/

theorem key_lt {c : ℝ} {L p q : Pt} (hL : Near c L) (hp : Near c p) (hq : Near c q) (h1 : Half L p) (h2 : Half L q)
    (h : 0 < orient L p q) : Real.pi / 2 - azimuthSph L p < Real.pi / 2 - azimuthSph L q := by
  by_contra hn
  push Not at hn
  have := orient_of_az hL hq hp h2 h1 (by linarith)
  rw [show orient L q p = - orient L p q by unfold orient cross V3.dot; ring] at this
  linarith

theorem az_pos_of_east {p q : Pt} (h : 0 < east p q) : 0 < azimuthSph p q := by
  by_contra hn
  push Not at hn
  have hm : -Real.pi < azimuthSph p q ∧ azimuthSph p q ≤ Real.pi := atan2_mem _ _
  have h1 := Real.sin_nonpos_of_nonpos_of_neg_pi_le hn hm.1.le
  have h2 : 0 ≤ reach p q := Real.sqrt_nonneg _
  have h3 := az_sin p q
  have := mul_nonpos_of_nonneg_of_nonpos h2 h1
  linarith

theorem az_neg_of_east {p q : Pt} (h : east p q < 0) : azimuthSph p q < 0 := by
  by_contra hn
  push Not at hn
  have hm : -Real.pi < azimuthSph p q ∧ azimuthSph p q ≤ Real.pi := atan2_mem _ _
  have h1 := Real.sin_nonneg_of_nonneg_of_le_pi hn hm.2
  have h2 : 0 ≤ reach p q := Real.sqrt_nonneg _
  have h3 := az_sin p q
  have := mul_nonneg h2 h1
  linarith

theorem sin_az_pos {p q : Pt} (h : 0 < east p q) : 0 < Real.sin (azimuthSph p q) := by
  have h2 : 0 ≤ reach p q := Real.sqrt_nonneg _
  rw [← az_sin p q] at h
  exact pos_of_mul_pos_right h h2

theorem sin_az_neg {p q : Pt} (h : east p q < 0) : Real.sin (azimuthSph p q) < 0 := by
  have h2 : 0 ≤ reach p q := Real.sqrt_nonneg _
  rw [← az_sin p q] at h
  by_contra hn
  have := mul_nonneg h2 (not_lt.mp hn)
  linarith

theorem vec_b : vec ⟨45, -30⟩ = ⟨√3 / 2 * (√2 / 2), √3 / 2 * (√2 / 2), -(1 / 2)⟩ := by
  rw [vec_eq]
  have e1 : Real.pi * ((45 : ℚ) : ℝ) / 180 = Real.pi / 4 := by push_cast; ring
  have e2 : Real.pi * ((-30 : ℚ) : ℝ) / 180 = -(Real.pi / 6) := by push_cast; ring
  simp only [e1, e2, Real.cos_neg, Real.sin_neg, Real.cos_pi_div_four, Real.sin_pi_div_four, Real.cos_pi_div_six, Real.sin_pi_div_six]

theorem vec_c : vec ⟨60, -30⟩ = ⟨√3 / 2 * (1 / 2), √3 / 2 * (√3 / 2), -(1 / 2)⟩ := by
  rw [vec_eq]
  have e1 : Real.pi * ((60 : ℚ) : ℝ) / 180 = Real.pi / 3 := by push_cast; ring
  have e2 : Real.pi * ((-30 : ℚ) : ℝ) / 180 = -(Real.pi / 6) := by push_cast; ring
  simp only [e1, e2, Real.cos_neg, Real.sin_neg, Real.cos_pi_div_three, Real.sin_pi_div_three, Real.cos_pi_div_six, Real.sin_pi_div_six]

theorem vec_g : vec ⟨30, -45⟩ = ⟨√2 / 2 * (√3 / 2), √2 / 2 * (1 / 2), -(√2 / 2)⟩ := by
  rw [vec_eq]
  have e1 : Real.pi * ((30 : ℚ) : ℝ) / 180 = Real.pi / 6 := by push_cast; ring
  have e2 : Real.pi * ((-45 : ℚ) : ℝ) / 180 = -(Real.pi / 4) := by push_cast; ring
  simp only [e1, e2, Real.cos_neg, Real.sin_neg, Real.cos_pi_div_four, Real.sin_pi_div_four, Real.cos_pi_div_six, Real.sin_pi_div_six]

theorem sqrt_bounds : (1.41 : ℝ) < √2 ∧ √2 < 1.42 ∧ (1.73 : ℝ) < √3 ∧ √3 < 1.74 ∧ √2 ^ 2 = 2 ∧ √3 ^ 2 = 3 := by
  refine ⟨Real.lt_sqrt_of_sq_lt (by norm_num), ?_, Real.lt_sqrt_of_sq_lt (by norm_num), ?_, Real.sq_sqrt (by norm_num),
    Real.sq_sqrt (by norm_num)⟩
  · rw [Real.sqrt_lt' (by norm_num)]; norm_num
  · rw [Real.sqrt_lt' (by norm_num)]; norm_num

/-- **C139 fails for repeated vertices.**  A vertex compared with a copy of itself has azimuth 0, so a ring whose first vertex is
not on the hull, and which passes it going east, keeps it: here the polygon has a dent at the first vertex, which it lists
twice, and the vertex `(30, -45)` is outside of the side from there to `(60, -30)`. -/
theorem C139_violated_repeated_vertex :
    convexHull true [⟨45, -30⟩, ⟨0, 0⟩, ⟨30, -45⟩, ⟨60, -30⟩] =
      .ok [⟨0, 0⟩, ⟨30, -45⟩, ⟨45, -30⟩, ⟨45, -30⟩, ⟨60, -30⟩] ∧
    orient ⟨45, -30⟩ ⟨60, -30⟩ ⟨30, -45⟩ < 0 ∧
    ¬ Encloses [⟨0, 0⟩, ⟨30, -45⟩, ⟨45, -30⟩, ⟨45, -30⟩, ⟨60, -30⟩] (readPts true [⟨45, -30⟩, ⟨0, 0⟩, ⟨30, -45⟩, ⟨60, -30⟩]) := by
  obtain ⟨s1, s2, t1, t2, ss, tt⟩ := sqrt_bounds
  have hN : ∀ x y : ℚ, 0 ≤ x → x ≤ 60 → -45 ≤ y → y ≤ 0 → Near 30 ⟨x, y⟩ := by
    intro x y h1 h2 h3 h4
    have h1' : (0 : ℝ) ≤ x := by exact_mod_cast h1
    have h2' : (x : ℝ) ≤ 60 := by exact_mod_cast h2
    exact ⟨abs_lt.mpr ⟨by simp only; linarith, by simp only; linarith⟩, abs_lt.mpr ⟨by simp only; linarith, by simp only; linarith⟩⟩
  have nL := hN 0 0 (by norm_num) (by norm_num) (by norm_num) (by norm_num)
  have nb := hN 45 (-30) (by norm_num) (by norm_num) (by norm_num) (by norm_num)
  have nc := hN 60 (-30) (by norm_num) (by norm_num) (by norm_num) (by norm_num)
  have ng := hN 30 (-45) (by norm_num) (by norm_num) (by norm_num) (by norm_num)
  have o1 : 0 < orient ⟨0, 0⟩ ⟨30, -45⟩ ⟨45, -30⟩ := by
    unfold orient; rw [vec_00, vec_b, vec_g]; unfold cross V3.dot; simp only; nlinarith
  have o2 : 0 < orient ⟨0, 0⟩ ⟨45, -30⟩ ⟨60, -30⟩ := by
    unfold orient; rw [vec_00, vec_b, vec_c]; unfold cross V3.dot; simp only; nlinarith
  have o3 : orient ⟨45, -30⟩ ⟨60, -30⟩ ⟨30, -45⟩ < 0 := by
    have e : orient ⟨45, -30⟩ ⟨60, -30⟩ ⟨30, -45⟩ = √3 * (√2 - 2) / 16 := by
      unfold orient; rw [vec_g, vec_b, vec_c]; unfold cross V3.dot; simp only
      linear_combination (√2 * √3 - √2 ^ 2 * √3) / 32 * tt - 2 * √3 / 32 * ss
    rw [e]
    nlinarith
  have k1 := key_lt nL ng nb (Or.inl (by norm_num)) (Or.inl (by norm_num)) o1
  have k2 := key_lt nL nb nc (Or.inl (by norm_num)) (Or.inl (by norm_num)) o2
  refine ⟨?_, o3, ?_⟩
  · have hP : readPts true [⟨45, -30⟩, ⟨0, 0⟩, ⟨30, -45⟩, ⟨60, -30⟩] =
        [⟨45, -30⟩, ⟨0, 0⟩, ⟨30, -45⟩, ⟨60, -30⟩, ⟨45, -30⟩] := rfl
    have hlm : leftmost [⟨45, -30⟩, ⟨0, 0⟩, ⟨30, -45⟩, ⟨60, -30⟩, ⟨45, -30⟩] = 1 := by decide +kernel
    have l1 : isleftSph ⟨30, -45⟩ ⟨45, -30⟩ ⟨45, -30⟩ = true := by
      rw [isleft_iff_sin, azimuth_self nb, zero_sub, Real.sin_neg]
      have := sin_az_neg (p := ⟨45, -30⟩) (q := ⟨30, -45⟩) (by
        rw [east_swap]; have := east_pos ng nb (by norm_num); linarith)
      linarith
    have l2 : isleftSph ⟨45, -30⟩ ⟨45, -30⟩ ⟨60, -30⟩ = true := by
      rw [isleft_iff_sin, azimuth_self nb, sub_zero]
      exact sin_az_pos (east_pos nb nc (by norm_num))
    have haz : azimuthIndices [⟨45, -30⟩, ⟨0, 0⟩, ⟨30, -45⟩, ⟨60, -30⟩, ⟨45, -30⟩] =
        [(Real.pi / 2 - azimuthSph ⟨0, 0⟩ ⟨30, -45⟩, 2), (Real.pi / 2 - azimuthSph ⟨0, 0⟩ ⟨45, -30⟩, 0),
          (Real.pi / 2 - azimuthSph ⟨0, 0⟩ ⟨45, -30⟩, 4), (Real.pi / 2 - azimuthSph ⟨0, 0⟩ ⟨60, -30⟩, 3)] := by
      classical
      unfold azimuthIndices
      rw [hlm]
      have : ((List.range [(⟨45, -30⟩ : Pt), ⟨0, 0⟩, ⟨30, -45⟩, ⟨60, -30⟩, ⟨45, -30⟩].length).filter fun i => i ≠ 1) = [0, 2, 3, 4] := by
        decide
      rw [this]
      have a1 : ¬ azLe (Real.pi / 2 - azimuthSph ⟨0, 0⟩ ⟨60, -30⟩, 3) (Real.pi / 2 - azimuthSph ⟨0, 0⟩ ⟨45, -30⟩, 4) := by
        unfold azLe; simp only; rintro (h | ⟨h, _⟩) <;> linarith
      have a2 : azLe (Real.pi / 2 - azimuthSph ⟨0, 0⟩ ⟨30, -45⟩, 2) (Real.pi / 2 - azimuthSph ⟨0, 0⟩ ⟨45, -30⟩, 4) := Or.inl k1
      have a3 : ¬ azLe (Real.pi / 2 - azimuthSph ⟨0, 0⟩ ⟨45, -30⟩, 0) (Real.pi / 2 - azimuthSph ⟨0, 0⟩ ⟨30, -45⟩, 2) := by
        unfold azLe; simp only; rintro (h | ⟨h, _⟩) <;> linarith
      have a4 : azLe (Real.pi / 2 - azimuthSph ⟨0, 0⟩ ⟨45, -30⟩, 0) (Real.pi / 2 - azimuthSph ⟨0, 0⟩ ⟨45, -30⟩, 4) :=
        Or.inr ⟨rfl, by norm_num⟩
      change List.insertionSort azLe [(Real.pi / 2 - azimuthSph ⟨0, 0⟩ ⟨45, -30⟩, 0), (Real.pi / 2 - azimuthSph ⟨0, 0⟩ ⟨30, -45⟩, 2),
        (Real.pi / 2 - azimuthSph ⟨0, 0⟩ ⟨60, -30⟩, 3), (Real.pi / 2 - azimuthSph ⟨0, 0⟩ ⟨45, -30⟩, 4)] = _
      simp only [List.insertionSort_cons, List.insertionSort_nil, List.orderedInsert, if_neg a1, if_pos a2, if_neg a3, if_pos a4]
    have hd : ∀ Q L i j k, dedup Q L [(Real.pi / 2 - azimuthSph ⟨0, 0⟩ ⟨30, -45⟩, 2), (Real.pi / 2 - azimuthSph ⟨0, 0⟩ ⟨45, -30⟩, 0),
          (Real.pi / 2 - azimuthSph ⟨0, 0⟩ ⟨45, -30⟩, 4), (Real.pi / 2 - azimuthSph ⟨0, 0⟩ ⟨60, -30⟩, 3)]
        [(Real.pi / 2 - azimuthSph ⟨0, 0⟩ ⟨45, -30⟩, 0),
          (Real.pi / 2 - azimuthSph ⟨0, 0⟩ ⟨45, -30⟩, 4), (Real.pi / 2 - azimuthSph ⟨0, 0⟩ ⟨60, -30⟩, 3)] i 0 j [k] = [k, 0, 4, 3] := by
      intro Q L i j k
      rw [dedup_rest]
      · rfl
      · intro e he
        simp only [List.mem_cons, List.not_mem_nil, or_false] at he
        change e.1 ≠ Real.pi / 2 - azimuthSph ⟨0, 0⟩ ⟨30, -45⟩
        rcases he with rfl | rfl | rfl <;> simp only <;> intro h <;> linarith
    have hsc : scan [⟨45, -30⟩, ⟨0, 0⟩, ⟨30, -45⟩, ⟨60, -30⟩, ⟨45, -30⟩] [4, 3] [0, 2, 1] = .ok [3, 4, 0, 2, 1] := by
      have p1 : popWhile [⟨45, -30⟩, ⟨0, 0⟩, ⟨30, -45⟩, ⟨60, -30⟩, ⟨45, -30⟩] 4 [0, 2, 1] = .ok [0, 2, 1] := by
        rw [popWhile]; exact if_pos l1
      have p2 : popWhile [⟨45, -30⟩, ⟨0, 0⟩, ⟨30, -45⟩, ⟨60, -30⟩, ⟨45, -30⟩] 3 [4, 0, 2, 1] = .ok [4, 0, 2, 1] := by
        rw [popWhile]; exact if_pos l2
      simp only [scan, p1, p2]
    unfold convexHull convexhull
    rw [hP]
    simp only [haz, hlm, hd, hsc]
    rfl
  · intro h
    have := h.inside [⟨0, 0⟩, ⟨30, -45⟩, ⟨45, -30⟩] ⟨45, -30⟩ ⟨60, -30⟩ [⟨0, 0⟩] rfl ⟨30, -45⟩ (by decide +kernel)
    linarith

/-! ### Vertices on both sides of the meridian 180 -/

theorem east_val (p q : Pt) {d : ℝ} (h : (q.x : ℝ) - p.x = d) : east p q = Real.sin (rad d) := by unfold east; rw [h]

/-- **C139 fails across the meridian 180.**  The leftmost vertex is looked for in the plane of longitude and latitude, so here the
search starts with a vertex that lies in the triangle of the three others, and the polygon has a dent there. -/
theorem C139_violated_dateline :
    convexHull false [⟨-165, 0⟩, ⟨165, 45⟩, ⟨165, -45⟩, ⟨-135, 0⟩] = .ok [⟨-165, 0⟩, ⟨-135, 0⟩, ⟨165, 45⟩, ⟨165, -45⟩] ∧
    orient ⟨165, -45⟩ ⟨-165, 0⟩ ⟨-135, 0⟩ < 0 ∧
    ¬ Encloses [⟨-165, 0⟩, ⟨-135, 0⟩, ⟨165, 45⟩, ⟨165, -45⟩]
      (readPts false [⟨-165, 0⟩, ⟨165, 45⟩, ⟨165, -45⟩, ⟨-135, 0⟩]) := by
  obtain ⟨s1, s2, t1, t2, ss, tt⟩ := sqrt_bounds
  have r30 : rad 30 = Real.pi / 6 := by unfold rad; ring
  have r45 : rad 45 = Real.pi / 4 := by unfold rad; ring
  have r330 : rad 330 = -(Real.pi / 6) + 2 * Real.pi := by unfold rad; ring
  have r300 : rad (-300) = Real.pi / 3 - 2 * Real.pi := by unfold rad; ring
  have r0 : rad 0 = 0 := by unfold rad; ring
  have eD : east ⟨-165, 0⟩ ⟨-135, 0⟩ = 1 / 2 := by
    rw [east_val _ _ (d := 30) (by push_cast; ring), r30, Real.sin_pi_div_six]
  have eB : east ⟨-165, 0⟩ ⟨165, 45⟩ = -(1 / 2) := by
    rw [east_val _ _ (d := 330) (by push_cast; ring), r330, Real.sin_add_two_pi, Real.sin_neg, Real.sin_pi_div_six]
  have eC : east ⟨-165, 0⟩ ⟨165, -45⟩ = -(1 / 2) := by
    rw [east_val _ _ (d := 330) (by push_cast; ring), r330, Real.sin_add_two_pi, Real.sin_neg, Real.sin_pi_div_six]
  have nB : north ⟨-165, 0⟩ ⟨165, 45⟩ = 1 := by
    unfold north
    push_cast
    rw [r0, r45, Real.tan_pi_div_four]; simp
  have nC : north ⟨-165, 0⟩ ⟨165, -45⟩ = -1 := by
    unfold north
    push_cast
    rw [r0, rad_neg, r45, Real.tan_neg, Real.tan_pi_div_four]; simp
  have aD := az_pos_of_east (p := ⟨-165, 0⟩) (q := ⟨-135, 0⟩) (by rw [eD]; norm_num)
  have aB := az_neg_of_east (p := ⟨-165, 0⟩) (q := ⟨165, 45⟩) (by rw [eB]; norm_num)
  have aC := az_neg_of_east (p := ⟨-165, 0⟩) (q := ⟨165, -45⟩) (by rw [eC]; norm_num)
  have aBC : azimuthSph ⟨-165, 0⟩ ⟨165, -45⟩ < azimuthSph ⟨-165, 0⟩ ⟨165, 45⟩ := by
    have h := sin_diff ⟨-165, 0⟩ ⟨165, 45⟩ ⟨165, -45⟩
    rw [eB, eC, nB, nC] at h
    have hr : 0 ≤ reach ⟨-165, 0⟩ ⟨165, 45⟩ * reach ⟨-165, 0⟩ ⟨165, -45⟩ := mul_nonneg (Real.sqrt_nonneg _) (Real.sqrt_nonneg _)
    have mB : -Real.pi < azimuthSph ⟨-165, 0⟩ ⟨165, 45⟩ := (atan2_mem _ _).1
    by_contra hn
    push Not at hn
    have := Real.sin_nonpos_of_nonpos_of_neg_pi_le (x := azimuthSph ⟨-165, 0⟩ ⟨165, 45⟩ - azimuthSph ⟨-165, 0⟩ ⟨165, -45⟩)
      (by linarith) (by linarith)
    have := mul_nonpos_of_nonpos_of_nonneg this hr
    linarith
  have o3 : orient ⟨165, -45⟩ ⟨-165, 0⟩ ⟨-135, 0⟩ < 0 := by
    rw [orient_cycle]
    have hz := horiz ⟨-165, 0⟩ ⟨-135, 0⟩
    have h1 : Real.pi * (((-135 : ℚ) : ℝ) - ((-165 : ℚ) : ℝ)) / 180 = Real.pi / 6 := by push_cast; ring
    have h2 : Real.pi * ((0 : ℚ) : ℝ) / 180 = 0 := by push_cast; ring
    rw [h1, h2, Real.cos_zero, Real.sin_pi_div_six] at hz
    have z1 : (vec ⟨-165, 0⟩).z = 0 := by rw [vec_eq]; simp
    have z2 : (vec ⟨-135, 0⟩).z = 0 := by rw [vec_eq]; simp
    have z3 : (vec ⟨165, -45⟩).z = -(√2 / 2) := by
      rw [vec_eq]
      have e2 : Real.pi * ((-45 : ℚ) : ℝ) / 180 = -(Real.pi / 4) := by push_cast; ring
      simp only [e2, Real.sin_neg, Real.sin_pi_div_four]
    unfold orient cross V3.dot
    simp only [z1, z2, z3]
    nlinarith
  refine ⟨?_, o3, ?_⟩
  · have hP : readPts false [⟨-165, 0⟩, ⟨165, 45⟩, ⟨165, -45⟩, ⟨-135, 0⟩] =
        [⟨-165, 0⟩, ⟨165, 45⟩, ⟨165, -45⟩, ⟨-135, 0⟩] := rfl
    have hlm : leftmost [⟨-165, 0⟩, ⟨165, 45⟩, ⟨165, -45⟩, ⟨-135, 0⟩] = 0 := by decide +kernel
    have l1 : isleftSph ⟨-135, 0⟩ ⟨165, 45⟩ ⟨165, -45⟩ = true := by
      rw [isleft_iff_sin]
      have h := sin_diff ⟨165, 45⟩ ⟨165, -45⟩ ⟨-135, 0⟩
      have e1 : east ⟨165, 45⟩ ⟨165, -45⟩ = 0 := east_zero rfl
      have e2 : east ⟨165, 45⟩ ⟨-135, 0⟩ = √3 / 2 := by
        rw [east_val _ _ (d := -300) (by push_cast; ring), r300, Real.sin_sub_two_pi, Real.sin_pi_div_three]
      have e3 : north ⟨165, 45⟩ ⟨165, -45⟩ = -√2 := by
        unfold north
        push_cast
        rw [rad_neg, r45, Real.tan_neg, Real.tan_pi_div_four, sub_self, r0, Real.cos_zero, Real.cos_pi_div_four, Real.sin_pi_div_four]
        ring
      rw [e1, e2, e3] at h
      have hr : 0 ≤ reach ⟨165, 45⟩ ⟨165, -45⟩ * reach ⟨165, 45⟩ ⟨-135, 0⟩ := mul_nonneg (Real.sqrt_nonneg _) (Real.sqrt_nonneg _)
      refine pos_of_mul_pos_left ?_ hr
      rw [h]
      nlinarith
    have haz : azimuthIndices [⟨-165, 0⟩, ⟨165, 45⟩, ⟨165, -45⟩, ⟨-135, 0⟩] =
        [(Real.pi / 2 - azimuthSph ⟨-165, 0⟩ ⟨-135, 0⟩, 3), (Real.pi / 2 - azimuthSph ⟨-165, 0⟩ ⟨165, 45⟩, 1),
          (Real.pi / 2 - azimuthSph ⟨-165, 0⟩ ⟨165, -45⟩, 2)] := by
      classical
      unfold azimuthIndices
      rw [hlm]
      have : ((List.range [(⟨-165, 0⟩ : Pt), ⟨165, 45⟩, ⟨165, -45⟩, ⟨-135, 0⟩].length).filter fun i => i ≠ 0) = [1, 2, 3] := by
        decide
      rw [this]
      have a1 : ¬ azLe (Real.pi / 2 - azimuthSph ⟨-165, 0⟩ ⟨165, -45⟩, 2) (Real.pi / 2 - azimuthSph ⟨-165, 0⟩ ⟨-135, 0⟩, 3) := by
        unfold azLe; simp only; rintro (h | ⟨h, _⟩) <;> linarith
      have a2 : ¬ azLe (Real.pi / 2 - azimuthSph ⟨-165, 0⟩ ⟨165, 45⟩, 1) (Real.pi / 2 - azimuthSph ⟨-165, 0⟩ ⟨-135, 0⟩, 3) := by
        unfold azLe; simp only; rintro (h | ⟨h, _⟩) <;> linarith
      have a3 : azLe (Real.pi / 2 - azimuthSph ⟨-165, 0⟩ ⟨165, 45⟩, 1) (Real.pi / 2 - azimuthSph ⟨-165, 0⟩ ⟨165, -45⟩, 2) :=
        Or.inl (by simp only; linarith)
      change List.insertionSort azLe [(Real.pi / 2 - azimuthSph ⟨-165, 0⟩ ⟨165, 45⟩, 1), (Real.pi / 2 - azimuthSph ⟨-165, 0⟩ ⟨165, -45⟩, 2),
        (Real.pi / 2 - azimuthSph ⟨-165, 0⟩ ⟨-135, 0⟩, 3)] = _
      simp only [List.insertionSort_cons, List.insertionSort_nil, List.orderedInsert, if_neg a1, if_neg a2, if_pos a3]
    have hd : ∀ Q L i j k, dedup Q L [(Real.pi / 2 - azimuthSph ⟨-165, 0⟩ ⟨-135, 0⟩, 3), (Real.pi / 2 - azimuthSph ⟨-165, 0⟩ ⟨165, 45⟩, 1),
          (Real.pi / 2 - azimuthSph ⟨-165, 0⟩ ⟨165, -45⟩, 2)]
        [(Real.pi / 2 - azimuthSph ⟨-165, 0⟩ ⟨165, 45⟩, 1),
          (Real.pi / 2 - azimuthSph ⟨-165, 0⟩ ⟨165, -45⟩, 2)] i 0 j [k] = [k, 1, 2] := by
      intro Q L i j k
      rw [dedup_rest]
      · rfl
      · intro e he
        simp only [List.mem_cons, List.not_mem_nil, or_false] at he
        change e.1 ≠ Real.pi / 2 - azimuthSph ⟨-165, 0⟩ ⟨-135, 0⟩
        rcases he with rfl | rfl <;> simp only <;> intro h <;> linarith
    have hsc : scan [⟨-165, 0⟩, ⟨165, 45⟩, ⟨165, -45⟩, ⟨-135, 0⟩] [2] [1, 3, 0] = .ok [2, 1, 3, 0] := by
      have p1 : popWhile [⟨-165, 0⟩, ⟨165, 45⟩, ⟨165, -45⟩, ⟨-135, 0⟩] 2 [1, 3, 0] = .ok [1, 3, 0] := by
        rw [popWhile]; exact if_pos l1
      simp only [scan, p1]
    unfold convexHull convexhull
    rw [hP]
    simp only [haz, hlm, hd, hsc]
    rfl
  · intro h
    have := h.inside [⟨-165, 0⟩, ⟨-135, 0⟩, ⟨165, 45⟩] ⟨165, -45⟩ ⟨-165, 0⟩ [] rfl ⟨-135, 0⟩ (by decide +kernel)
    linarith

end Karta.Geod.HullSph
