import Verif.Vec.HullScan
import Mathlib.Data.List.Nodup

namespace Karta.Vec.Hull
open Karta Karta.Vec

/-! ## The leftmost vertex -/

/-- `p` is no further left than `L`, and not above it when level. -/
def Beyond (L p : Pt) : Prop := L.x < p.x ∨ (p.x = L.x ∧ p.y ≤ L.y)

theorem Beyond.trans {a b c : Pt} (h1 : Beyond a b) (h2 : Beyond b c) : Beyond a c := by
  unfold Beyond at *
  rcases h1 with h1 | ⟨h1, h1'⟩ <;> rcases h2 with h2 | ⟨h2, h2'⟩
  · left; linarith
  · left; linarith
  · left; linarith
  · right; exact ⟨by linarith, by linarith⟩

theorem Beyond.refl (a : Pt) : Beyond a a := Or.inr ⟨rfl, le_rfl⟩

theorem leftmostStep_spec (P : List Pt) (best i : Nat) :
    (leftmostStep P best i = best ∨ leftmostStep P best i = i) ∧
    Beyond (ptAt P (leftmostStep P best i)) (ptAt P best) ∧ Beyond (ptAt P (leftmostStep P best i)) (ptAt P i) := by
  unfold leftmostStep
  by_cases h1 : (ptAt P i).x < (ptAt P best).x
  · rw [if_pos h1]
    exact ⟨Or.inr rfl, Or.inl h1, Beyond.refl _⟩
  · rw [if_neg h1]
    by_cases h2 : (ptAt P i).x = (ptAt P best).x ∧ (ptAt P i).y > (ptAt P best).y
    · rw [if_pos h2]
      exact ⟨Or.inr rfl, Or.inr ⟨h2.1.symm, h2.2.le⟩, Beyond.refl _⟩
    · rw [if_neg h2]
      refine ⟨Or.inl rfl, Beyond.refl _, ?_⟩
      by_cases h3 : (ptAt P i).x = (ptAt P best).x
      · right; exact ⟨h3, not_lt.mp fun h => h2 ⟨h3, h⟩⟩
      · left; exact lt_of_le_of_ne (not_lt.mp h1) (Ne.symm h3)

theorem leftmost_fold (P : List Pt) : ∀ (l : List Nat) (best : Nat), best < P.length → (∀ i ∈ l, i < P.length) →
    l.foldl (leftmostStep P) best < P.length ∧
    Beyond (ptAt P (l.foldl (leftmostStep P) best)) (ptAt P best) ∧
    ∀ i ∈ l, Beyond (ptAt P (l.foldl (leftmostStep P) best)) (ptAt P i)
  | [], best, h, _ => ⟨h, Beyond.refl _, by simp⟩
  | j :: l, best, h, hl => by
    obtain ⟨e, b1, b2⟩ := leftmostStep_spec P best j
    have hj := hl j (by simp)
    have hlt : leftmostStep P best j < P.length := by rcases e with e | e <;> rw [e] <;> assumption
    obtain ⟨r1, r2, r3⟩ := leftmost_fold P l _ hlt (fun i hi => hl i (by simp [hi]))
    refine ⟨r1, r2.trans b1, ?_⟩
    intro i hi
    rcases List.mem_cons.mp hi with rfl | hi
    · exact r2.trans b2
    · exact r3 i hi

theorem leftmost_spec {P : List Pt} (hP : P ≠ []) :
    leftmost P < P.length ∧ ∀ i < P.length, Beyond (ptAt P (leftmost P)) (ptAt P i) := by
  have hlen : 0 < P.length := List.length_pos_iff.mpr hP
  obtain ⟨r1, r2, r3⟩ := leftmost_fold P (List.range' 1 (P.length - 1)) 0 hlen (by
    intro i hi; rw [List.mem_range'_1] at hi; omega)
  refine ⟨r1, ?_⟩
  intro i hi
  rcases Nat.eq_zero_or_pos i with rfl | h
  · exact r2
  · exact r3 i (by rw [List.mem_range'_1]; omega)

theorem ptAt_mem {P : List Pt} {i : Nat} (h : i < P.length) : ptAt P i ∈ P := by
  unfold ptAt
  rw [List.getD_eq_getElem?_getD, List.getElem?_eq_getElem h]
  exact List.getElem_mem h

theorem mem_ptAt {P : List Pt} {p : Pt} (h : p ∈ P) : ∃ i < P.length, ptAt P i = p := by
  obtain ⟨i, hi, e⟩ := List.getElem_of_mem h
  exact ⟨i, hi, by unfold ptAt; rw [List.getD_eq_getElem?_getD, List.getElem?_eq_getElem hi, Option.getD_some, e]⟩

theorem half_or_eq {L p : Pt} (h : Beyond L p) : Half L p ∨ p = L := by
  rcases h with h | ⟨h, h'⟩
  · exact Or.inl (Or.inl h)
  · rcases h'.lt_or_eq with h' | h'
    · exact Or.inl (Or.inr ⟨h, h'⟩)
    · exact Or.inr (by cases p; cases L; simp only at h h'; simp [h, h'])

theorem half_ne {L p : Pt} (h : Half L p) : p ≠ L := by
  rintro rfl
  rcases h with h | ⟨_, h⟩ <;> exact lt_irrefl _ h

/-! ## Directions -/

/-- Order of the keys without the index. -/
def keyLe (a b : Nat × ℚ) : Prop := a.1 < b.1 ∨ (a.1 = b.1 ∧ a.2 ≤ b.2)

theorem azLe_keyLe {a b : (Nat × ℚ) × Nat} (h : azLe a b) : keyLe a.1 b.1 := by
  rcases h with h | ⟨h, h' | ⟨h', _⟩⟩
  · exact Or.inl h
  · exact Or.inr ⟨h, h'.le⟩
  · exact Or.inr ⟨h, h'.le⟩

theorem dirKey_self (L : Pt) : dirKey L L = (2, 0) := by simp [dirKey]

theorem dirKey_half {L p : Pt} (h : Half L p) : (dirKey L p).1 < 2 := by
  unfold dirKey
  rcases h with h | ⟨h, h'⟩
  · rw [if_neg h.ne']; exact Nat.lt_succ_self 1
  · rw [if_pos h, if_neg h'.ne]; decide

theorem turn_of_keyLe {L p q : Pt} (hp : Half L p) (hq : Half L q) (h : keyLe (dirKey L p) (dirKey L q)) :
    0 ≤ turn L p q := by
  unfold keyLe dirKey at h
  rcases hp with hp | ⟨hp, hp'⟩ <;> rcases hq with hq | ⟨hq, hq'⟩
  · rw [if_neg hp.ne', if_neg hq.ne'] at h
    simp only [lt_irrefl, true_and, false_or] at h
    have h1 : 0 < p.x - L.x := by linarith
    have h2 : 0 < q.x - L.x := by linarith
    rw [div_le_div_iff₀ h1 h2] at h
    simp only [turn]; linarith
  · rw [if_neg hp.ne', if_pos hq, if_neg hq'.ne] at h
    simp at h
  · have h2 : 0 ≤ (L.y - p.y) * (q.x - L.x) := mul_nonneg (by linarith) (by linarith)
    simp only [turn, hp]; linarith
  · simp only [turn, hp, hq]; linarith

theorem key_of_turn {L p q : Pt} (hp : Half L p) (hq : Half L q) (h : turn L p q = 0) : dirKey L p = dirKey L q := by
  obtain ⟨m, hm, ex, ey⟩ := same_dir hp hq h
  unfold dirKey
  rcases hp with hp | ⟨hp, hp'⟩
  · have h1 : 0 < p.x - L.x := by linarith
    have h2 : 0 < q.x - L.x := by rw [ex]; positivity
    have hq' : ¬ q.x = L.x := by intro h; rw [h] at h2; linarith
    rw [if_neg hp.ne', if_neg hq', ex, ey]
    congr 1
    field_simp
  · rw [hp, sub_self, mul_zero] at ex
    have e : q.x = L.x := by linarith
    have h1 : 0 < m * (L.y - p.y) := mul_pos hm (by linarith)
    have e' : q.y ≠ L.y := by intro h; rw [h, sub_self] at ey; linarith
    rw [if_pos hp, if_neg hp'.ne, if_pos e, if_neg e']

theorem turn_of_key {L p q : Pt} (hp : Half L p) (hq : Half L q) (h : dirKey L p = dirKey L q) : turn L p q = 0 := by
  have h1 := turn_of_keyLe hp hq (by rw [h]; exact Or.inr ⟨rfl, le_rfl⟩)
  have h2 := turn_of_keyLe hq hp (by rw [h]; exact Or.inr ⟨rfl, le_rfl⟩)
  have : turn L q p = - turn L p q := by simp only [turn]; ring
  linarith

/-! ## The sorted list -/

instance : Std.Total azLe := ⟨fun a b => by
  unfold azLe
  rcases Nat.lt_trichotomy a.1.1 b.1.1 with h | h | h
  · exact Or.inl (Or.inl h)
  · rcases lt_trichotomy a.1.2 b.1.2 with h' | h' | h'
    · exact Or.inl (Or.inr ⟨h, Or.inl h'⟩)
    · rcases Nat.le_total a.2 b.2 with h'' | h''
      · exact Or.inl (Or.inr ⟨h, Or.inr ⟨h', h''⟩⟩)
      · exact Or.inr (Or.inr ⟨h.symm, Or.inr ⟨h'.symm, h''⟩⟩)
    · exact Or.inr (Or.inr ⟨h.symm, Or.inl h'⟩)
  · exact Or.inr (Or.inl h)⟩

instance : IsTrans _ azLe := ⟨fun a b c h1 h2 => by
  unfold azLe at *
  rcases h1 with h1 | ⟨h1, h1' | ⟨h1', h1''⟩⟩ <;> rcases h2 with h2 | ⟨h2, h2' | ⟨h2', h2''⟩⟩
  · left; omega
  · left; omega
  · left; omega
  · left; omega
  · right; exact ⟨by omega, Or.inl (lt_trans h1' h2')⟩
  · right; exact ⟨by omega, Or.inl (h2' ▸ h1')⟩
  · left; omega
  · right; exact ⟨by omega, Or.inl (h1' ▸ h2')⟩
  · right; exact ⟨by omega, Or.inr ⟨h1'.trans h2', by omega⟩⟩⟩

theorem az_sorted (P : List Pt) : (azimuthIndices P).Pairwise azLe := List.pairwise_insertionSort _ _

theorem az_mem {P : List Pt} {e : (Nat × ℚ) × Nat} : e ∈ azimuthIndices P ↔
    e.2 < P.length ∧ e.2 ≠ leftmost P ∧ e.1 = dirKey (ptAt P (leftmost P)) (ptAt P e.2) := by
  unfold azimuthIndices
  rw [List.mem_insertionSort, List.mem_map]
  constructor
  · rintro ⟨i, hi, rfl⟩
    simpa using hi
  · rintro ⟨h1, h2, h3⟩
    exact ⟨e.2, by simp [h1, h2], by rw [← h3]⟩

theorem split_sorted {α : Type} {R : α → α → Prop} (Q : α → Bool) (hQ : ∀ x y, R x y → Q y = true → Q x = true) :
    ∀ l : List α, l.Pairwise R → l = l.filter Q ++ l.filter fun x => !Q x
  | [], _ => rfl
  | a :: l, h => by
    have h' := List.pairwise_cons.mp h
    have ih := split_sorted Q hQ l h'.2
    cases hq : Q a with
    | true => rw [List.filter_cons_of_pos hq, List.filter_cons_of_neg (by simp [hq]), List.cons_append, ← ih]
    | false =>
      have hall : ∀ x ∈ l, Q x = false := by
        intro x hx
        cases hqx : Q x with
        | false => rfl
        | true => rw [hQ a x (h'.1 x hx) hqx] at hq; cases hq
      have e1 : l.filter Q = [] := by
        rw [List.filter_eq_nil_iff]; intro x hx; simp [hall x hx]
      rw [List.filter_cons_of_neg (by simp [hq]), List.filter_cons_of_pos (by simp [hq]), e1, List.nil_append]
      rw [e1, List.nil_append] at ih
      rw [← ih]

/-- The first direction keeps one vertex; the later ones are not thinned out. -/
theorem dedup_rest (P : List Pt) (L : Pt) (az : List ((Nat × ℚ) × Nat)) : ∀ (es : List ((Nat × ℚ) × Nat)) (i last : Nat)
    (lastpt : Pt) (indices : List Nat), (∀ e ∈ es, e.1 ≠ (az.getD last ((0, 0), 0)).1) →
    dedup P L az es i last lastpt indices = indices ++ es.map Prod.snd
  | [], _, _, _, _, _ => by simp [dedup]
  | e :: es, i, last, lastpt, indices, h => by
    rw [dedup, if_neg (h e (by simp)), dedup_rest P L az es (i + 1) last lastpt _ (fun x hx => h x (by simp [hx]))]
    simp

theorem dedup_ties (P : List Pt) (L : Pt) (az rest : List ((Nat × ℚ) × Nat)) (k0 : Nat × ℚ) :
    ∀ (ties : List ((Nat × ℚ) × Nat)) (i last : Nat) (lastpt : Pt) (g : Nat),
    (∀ e ∈ rest, e.1 ≠ k0) → (∀ e ∈ ties, e.1 = k0) → (az.getD last ((0, 0), 0)).1 = k0 →
    (∀ j < ties.length, (az.getD (i + j) ((0, 0), 0)).1 = k0) →
    ∃ g', (g' = g ∨ ∃ e ∈ ties, g' = e.2) ∧
      dedup P L az (ties ++ rest) i last lastpt [g] = g' :: rest.map Prod.snd
  | [], i, last, lastpt, g, hr, _, hl, _ => by
    refine ⟨g, Or.inl rfl, ?_⟩
    rw [List.nil_append, dedup_rest P L az rest i last lastpt [g] (fun e he => by rw [hl]; exact hr e he)]
    rfl
  | e :: ties, i, last, lastpt, g, hr, ht, hl, hi => by
    have he : e.1 = (az.getD last ((0, 0), 0)).1 := by rw [hl]; exact ht e (by simp)
    have hi' : ∀ j < ties.length, (az.getD (i + 1 + j) ((0, 0), 0)).1 = k0 := by
      intro j hj
      have := hi (j + 1) (by simp; omega)
      rwa [show i + 1 + j = i + (j + 1) by omega]
    rw [List.cons_append, dedup, if_pos he]
    by_cases hd : sqDist L (ptAt P e.2) > sqDist L lastpt
    · rw [if_pos hd]
      have h0 := hi 0 (by simp)
      rw [Nat.add_zero] at h0
      obtain ⟨g', hg', eq⟩ := dedup_ties P L az rest k0 ties (i + 1) i (ptAt P i) e.2 hr
        (fun x hx => ht x (by simp [hx])) h0 hi'
      refine ⟨g', Or.inr ?_, eq⟩
      rcases hg' with rfl | ⟨x, hx, rfl⟩
      · exact ⟨e, by simp, rfl⟩
      · exact ⟨x, by simp [hx], rfl⟩
    · rw [if_neg hd]
      obtain ⟨g', hg', eq⟩ := dedup_ties P L az rest k0 ties (i + 1) last lastpt g hr
        (fun x hx => ht x (by simp [hx])) hl hi'
      refine ⟨g', ?_, eq⟩
      rcases hg' with rfl | ⟨x, hx, rfl⟩
      · exact Or.inl rfl
      · exact Or.inr ⟨x, by simp [hx], rfl⟩

/-! ## Indices and points -/

theorem popWhile_pts (P : List Pt) (i : Nat) : ∀ st : List Nat,
    (popWhile P i st).map (List.map (ptAt P)) = popPts (ptAt P i) (st.map (ptAt P))
  | [] => rfl
  | [_] => rfl
  | b :: a :: st => by
    simp only [popWhile, List.map_cons, popPts]
    by_cases h : isleft (ptAt P a) (ptAt P b) (ptAt P i) = true
    · rw [if_pos h, if_pos h]; rfl
    · rw [if_neg h, if_neg h]; exact popWhile_pts P i (a :: st)

theorem popWhile_sub (P : List Pt) (i : Nat) : ∀ st st' : List Nat, popWhile P i st = .ok st' →
    ∀ j ∈ st', j ∈ st
  | [], _, h => by simp [popWhile] at h
  | [_], _, h => by simp [popWhile] at h
  | b :: a :: st, st', h => by
    rw [popWhile] at h
    by_cases hl : isleft (ptAt P a) (ptAt P b) (ptAt P i) = true
    · rw [if_pos hl] at h; cases h; exact fun j hj => hj
    · rw [if_neg hl] at h
      intro j hj
      have := popWhile_sub P i (a :: st) st' h j hj
      simp at this ⊢; tauto

theorem scan_pts (P : List Pt) : ∀ (is st : List Nat),
    (scan P is st).map (List.map (ptAt P)) = scanPts (is.map (ptAt P)) (st.map (ptAt P))
  | [], _ => rfl
  | i :: is, st => by
    have h := popWhile_pts P i st
    rw [scan, List.map_cons, scanPts, ← h]
    cases popWhile P i st with
    | error e => rfl
    | ok st' => exact scan_pts P is (i :: st')

/-! ## Specification -/

/-- Spec: `L` is the leftmost, and among the leftmost the uppermost, point of `P`. -/
def IsLeftmost (P : List Pt) (L : Pt) : Prop :=
  L ∈ P ∧ ∀ p ∈ P, L.x < p.x ∨ (p.x = L.x ∧ p.y ≤ L.y)

/-- Spec: `p` lies on the lowest ray that starts at `L`: every point is to the left of, or on, the line from
`L` through `p`. -/
def OnLowestRay (P : List Pt) (L p : Pt) : Prop := p ∈ P ∧ p ≠ L ∧ ∀ r ∈ P, 0 ≤ turn L p r

/-- Spec: the polygon with vertices `H` encloses `P`: its vertices are points of `P`, it turns left at every
vertex (strictly, except at the last vertex and at the first one), and every point of `P` is on the inner side
of every side, including the closing one, and a convex combination of the vertices. -/
structure Encloses (H P : List Pt) : Prop where
  vertices : ∀ h ∈ H, h ∈ P
  left_turns : ∀ (l : List Pt) (a b c : Pt) (r : List Pt), H = l ++ a :: b :: c :: r → 0 < turn a b c
  inside : ∀ (l : List Pt) (a b : Pt) (r : List Pt), H ++ H.head?.toList = l ++ a :: b :: r → ∀ p ∈ P, 0 ≤ turn a b p
  combination : ∀ p ∈ P, Conv (fun q => q ∈ H) p

theorem leftmost_unique {P : List Pt} {L : Pt} (h : IsLeftmost P L) : ptAt P (leftmost P) = L := by
  have hne : P ≠ [] := by intro e; rw [e] at h; simp [IsLeftmost] at h
  obtain ⟨h1, h2⟩ := leftmost_spec hne
  obtain ⟨i, hi, rfl⟩ := mem_ptAt h.1
  have a := h2 i hi
  have b := h.2 _ (ptAt_mem h1)
  unfold Beyond at a
  have : (ptAt P (leftmost P)).x = (ptAt P i).x ∧ (ptAt P (leftmost P)).y = (ptAt P i).y := by
    rcases a with a | ⟨a, a'⟩ <;> rcases b with b | ⟨b, b'⟩
    · linarith
    · linarith
    · linarith
    · exact ⟨b, by linarith⟩
  generalize ptAt P (leftmost P) = u at *
  generalize ptAt P i = v at *
  cases u; cases v; simp only at this; simp [this]

/-- From the stack of the scan to the specification. -/
theorem encloses_of_stack {P st : List Pt} {L : Pt} (h1 : Turns st) (h2 : ∀ p ∈ P, AllLeft p st)
    (h3 : ∀ top, st.head? = some top → ∀ p ∈ P, 0 ≤ turn top L p) (h4 : ∀ p ∈ P, Conv (fun q => q ∈ st) p)
    (h5 : ∀ p ∈ st, p ∈ P) (h6 : st.getLast? = some L) : Encloses st.reverse P := by
  refine ⟨by simpa using h5, ?_, ?_, ?_⟩
  · intro l a b c r e
    have : st = r.reverse ++ c :: b :: a :: l.reverse := by
      rw [← List.reverse_reverse st, e]; simp
    rw [this] at h1
    exact turns_split _ _ _ _ _ h1
  · intro l a b r e p hp
    rw [List.head?_reverse, h6] at e
    simp only [Option.toList_some] at e
    rcases List.eq_nil_or_concat r with hr | ⟨r', x, hr⟩
    · rw [hr] at e
      have e' : st.reverse ++ [L] = (l ++ [a]) ++ [b] := by rw [e]; simp
      obtain ⟨e1, e2⟩ := List.append_inj' e' rfl
      simp only [List.cons.injEq, and_true] at e2
      rw [← e2]
      apply h3 a _ p hp
      have : st = (l ++ [a]).reverse := by rw [← e1, List.reverse_reverse]
      rw [this]; simp
    · rw [hr] at e
      have e' : st.reverse ++ [L] = (l ++ a :: b :: r') ++ [x] := by rw [e]; simp
      obtain ⟨e1, _⟩ := List.append_inj' e' rfl
      have : st = r'.reverse ++ b :: a :: l.reverse := by
        rw [← List.reverse_reverse st, e1]; simp
      have := h2 p hp
      rw [‹st = _›] at this
      exact allLeft_split _ _ _ _ this
  · intro p hp
    refine conv_mono (fun q hq => .base ?_) (h4 p hp)
    simpa using hq

/-- `convex_hull` of a geometry in a planar coordinate system (geometry.py 600-613): the vertices of the polygon. -/
def convexHull (ring : Bool) (ps : List Pt) : Except Err (List Pt) :=
  (convexhull ring ps).map fun idx => idx.map (ptAt (readPts ring ps))

/-- Core of C46. -/
theorem hull_core {ring : Bool} {ps : List Pt} {P : List Pt} (hP : P = readPts ring ps) {L : Pt}
    (hL : IsLeftmost P L)
    (hnc : ∃ p ∈ P, ∃ q ∈ P, turn L p q ≠ 0) :
    ∃ (H : List Pt) (g : Pt), convexHull ring ps = .ok H ∧ OnLowestRay P L g ∧
      ∀ Q : List Pt, (∀ p, p ∈ Q ↔ p ∈ P ∧ (OnLowestRay P L p → p = g)) → Encloses H Q := by
  have hne : P ≠ [] := by intro e; rw [e] at hL; simp [IsLeftmost] at hL
  obtain ⟨hlt, hbey⟩ := leftmost_spec hne
  have hLe := leftmost_unique hL
  rw [hLe] at hbey
  -- every vertex other than the leftmost is listed
  have hlist : ∀ p ∈ P, p ≠ L → ∃ e ∈ azimuthIndices P, ptAt P e.2 = p ∧ e.1 = dirKey L p ∧ Half L p := by
    intro p hp hpL
    obtain ⟨i, hi, rfl⟩ := mem_ptAt hp
    refine ⟨(dirKey L (ptAt P i), i), az_mem.mpr ⟨hi, ?_, by rw [hLe]⟩, rfl, rfl, (half_or_eq (hbey i hi)).resolve_right hpL⟩
    rintro h
    simp only at h
    rw [h] at hpL
    exact hpL hLe
  have hentry : ∀ e ∈ azimuthIndices P, e.2 < P.length ∧ e.1 = dirKey L (ptAt P e.2) ∧
      (Half L (ptAt P e.2) ∨ ptAt P e.2 = L) := by
    intro e he
    obtain ⟨a, _, c⟩ := az_mem.mp he
    rw [hLe] at c
    exact ⟨a, c, half_or_eq (hbey _ a)⟩
  have hsort := az_sorted P
  cases haz : azimuthIndices P with
  | nil =>
    exfalso
    obtain ⟨p, hp, q, hq, hpq⟩ := hnc
    have : p = L := by
      by_contra h
      obtain ⟨e, he, _⟩ := hlist p hp h
      rw [haz] at he; simp at he
    apply hpq; rw [this]; exact turn_L_left _ _
  | cons e es =>
    rw [haz] at hsort hlist hentry
    have hs' := List.pairwise_cons.mp hsort
    have hkmin : ∀ x ∈ e :: es, keyLe e.1 x.1 := by
      intro x hx
      rcases List.mem_cons.mp hx with rfl | hx
      · exact Or.inr ⟨rfl, le_rfl⟩
      · exact azLe_keyLe (hs'.1 x hx)
    have heH : Half L (ptAt P e.2) := by
      refine (hentry e (by simp)).2.2.resolve_right fun heL => ?_
      have hk : e.1 = (2, 0) := by rw [(hentry e (by simp)).2.1, heL, dirKey_self]
      have hall : ∀ p ∈ P, p = L := by
        intro p hp
        by_contra h
        obtain ⟨x, hx, _, hk', hh⟩ := hlist p hp h
        have h1 := hkmin x hx
        have h2 := dirKey_half hh
        rw [hk, hk'] at h1
        rcases h1 with h1 | ⟨h1, _⟩ <;> simp only at h1 <;> omega
      obtain ⟨p, hp, q, hq, hpq⟩ := hnc
      apply hpq; rw [hall p hp]; exact turn_L_left _ _
    have hray : ∀ x ∈ e :: es, x.1 = e.1 → OnLowestRay P L (ptAt P x.2) := by
      intro x hx hxe
      have hxH : Half L (ptAt P x.2) := by
        refine (hentry x hx).2.2.resolve_right fun h => ?_
        have h1 := (hentry x hx).2.1
        have h2 := (hentry e (by simp)).2.1
        rw [h, dirKey_self, hxe, h2] at h1
        have := dirKey_half heH
        rw [h1] at this
        exact absurd this (by simp)
      refine ⟨ptAt_mem (hentry x hx).1, half_ne hxH, ?_⟩
      intro r hr
      by_cases hrL : r = L
      · rw [hrL]; exact (turn_L_right _ _).ge
      · obtain ⟨f, hf, _, hfk, hfH⟩ := hlist r hr hrL
        apply turn_of_keyLe hxH hfH
        rw [← hfk, ← (hentry x hx).2.1, hxe]
        exact hkmin f hf
    -- the three groups
    obtain ⟨ties, rest, hes, hties, hrest⟩ : ∃ ties rest : List ((Nat × ℚ) × Nat), es = ties ++ rest ∧
        (∀ x ∈ ties, x.1 = e.1) ∧ ∀ x ∈ rest, x.1 ≠ e.1 := by
      refine ⟨_, _, split_sorted (R := fun x y => azLe x y ∧ azLe e x) (fun x => decide (x.1 = e.1)) ?_ es
        (hs'.2.imp_of_mem fun hx _ h => ⟨h, hs'.1 _ hx⟩), ?_, ?_⟩
      · intro x y hxy hy
        simp only [decide_eq_true_eq] at hy ⊢
        have h1 := azLe_keyLe hxy.1
        have h2 := azLe_keyLe hxy.2
        rw [hy] at h1
        unfold keyLe at h1 h2
        have h3 : x.1.1 = e.1.1 := by omega
        have h4 : x.1.2 = e.1.2 := by
          apply le_antisymm
          · rcases h1 with h | ⟨_, h⟩
            · omega
            · exact h
          · rcases h2 with h | ⟨_, h⟩
            · omega
            · exact h
        exact Prod.ext h3 h4
      · intro x hx; simpa using (List.mem_filter.mp hx).2
      · intro x hx; simpa using (List.mem_filter.mp hx).2
    have hrsort : rest.Pairwise azLe := by
      have := hs'.2
      rw [hes] at this
      exact (List.pairwise_append.mp this).2.1
    have hrmem : ∀ x ∈ rest, x ∈ e :: es := fun x hx => by rw [hes]; simp [hx]
    obtain ⟨Hs, D, hrs, hHs, hD⟩ : ∃ Hs D : List ((Nat × ℚ) × Nat), rest = Hs ++ D ∧
        (∀ x ∈ Hs, x.1.1 < 2) ∧ ∀ x ∈ D, ¬ x.1.1 < 2 := by
      refine ⟨_, _, split_sorted (R := azLe) (fun x => decide (x.1.1 < 2)) ?_ rest hrsort, ?_, ?_⟩
      · intro x y hxy hy
        simp only [decide_eq_true_eq] at hy ⊢
        have h1 := azLe_keyLe hxy
        unfold keyLe at h1
        omega
      · intro x hx; simpa using (List.mem_filter.mp hx).2
      · intro x hx; simpa using (List.mem_filter.mp hx).2
    have hHmem : ∀ x ∈ Hs, x ∈ rest := fun x hx => by rw [hrs]; simp [hx]
    have hDmem : ∀ x ∈ D, x ∈ rest := fun x hx => by rw [hrs]; simp [hx]
    have hHhalf : ∀ x ∈ Hs, Half L (ptAt P x.2) := by
      intro x hx
      have hx' := hrmem x (hHmem x hx)
      refine (hentry x hx').2.2.resolve_right fun h => ?_
      have h1 := (hentry x hx').2.1
      rw [h, dirKey_self] at h1
      have := hHs x hx
      rw [h1] at this
      exact absurd this (by simp)
    have hDL : ∀ x ∈ D, ptAt P x.2 = L := by
      intro x hx
      have hx' := hrmem x (hDmem x hx)
      refine (hentry x hx').2.2.resolve_left fun h => hD x hx ?_
      rw [(hentry x hx').2.1]
      exact dirKey_half h
    -- the first group gives `g`
    obtain ⟨g, hgor, hded⟩ := dedup_ties P (ptAt P (leftmost P)) (e :: es) rest e.1 ties 1 0 (ptAt P (leftmost P)) e.2
      hrest hties (by simp) (by
        intro j hj
        have : (e :: es).getD (1 + j) ((0, 0), 0) = ties[j] := by
          rw [Nat.add_comm, List.getD_cons_succ, hes, List.getD_eq_getElem?_getD, List.getElem?_append_left hj,
            List.getElem?_eq_getElem hj, Option.getD_some]
        rw [this]
        exact hties _ (List.getElem_mem hj))
    obtain ⟨ge, hge, hgee, hgeg⟩ : ∃ ge ∈ e :: es, ge.1 = e.1 ∧ ge.2 = g := by
      rcases hgor with rfl | ⟨x, hx, rfl⟩
      · exact ⟨e, by simp, rfl, rfl⟩
      · exact ⟨x, by rw [hes]; simp [hx], hties x hx, rfl⟩
    have hgray : OnLowestRay P L (ptAt P g) := hgeg ▸ hray ge hge hgee
    have hgH : Half L (ptAt P g) := by
      rw [← hgeg] at hgray ⊢
      exact (hentry ge hge).2.2.resolve_right hgray.2.1
    have hgk : dirKey L (ptAt P g) = e.1 := by
      rw [← hgeg, ← (hentry ge hge).2.1, hgee]
    rw [← hes] at hded
    -- there is a second direction
    have hall : ∀ p ∈ P, p = L ∨ (p ≠ L ∧ dirKey L p = e.1 ∧ OnLowestRay P L p) ∨ ∃ x ∈ Hs, ptAt P x.2 = p := by
      intro p hp
      by_cases h : p = L
      · exact Or.inl h
      · obtain ⟨x, hx, hxp, _, hh⟩ := hlist p hp h
        by_cases hxe : x.1 = e.1
        · refine Or.inr (Or.inl ⟨h, ?_, by rw [← hxp]; exact hray x hx hxe⟩)
          rw [← hxp, ← (hentry x hx).2.1, hxe]
        · rcases List.mem_cons.mp hx with rfl | hx
          · exact absurd rfl hxe
          · rw [hes] at hx
            rcases List.mem_append.mp hx with hx | hx
            · exact absurd (hties x hx) hxe
            · rw [hrs] at hx
              rcases List.mem_append.mp hx with hx | hx
              · exact Or.inr (Or.inr ⟨x, hx, hxp⟩)
              · exact absurd (by rw [← hxp]; exact hDL x hx) h
    obtain ⟨h1, Hs', hHs1⟩ : ∃ h1 Hs', Hs = h1 :: Hs' := by
      cases hh : Hs with
      | cons a l => exact ⟨a, l, rfl⟩
      | nil =>
        exfalso
        have h2 : ∀ p ∈ P, p = L ∨ (Half L p ∧ dirKey L p = e.1) := by
          intro p hp
          rcases hall p hp with h | ⟨h, hk, _⟩ | ⟨x, hx, _⟩
          · exact Or.inl h
          · obtain ⟨_, _, _, _, hh⟩ := hlist p hp h
            exact Or.inr ⟨hh, hk⟩
          · rw [hh] at hx; simp at hx
        obtain ⟨p, hp, q, hq, hpq⟩ := hnc
        apply hpq
        rcases h2 p hp with hp | hp
        · rw [hp]; exact turn_L_left _ _
        · rcases h2 q hq with hq | hq
          · rw [hq]; exact turn_L_right _ _
          · exact turn_of_key hp.1 hq.1 (hp.2.trans hq.2.symm)
    -- run the scan on points
    have hHsort : Hs.Pairwise azLe := by
      rw [hrs] at hrsort; exact (List.pairwise_append.mp hrsort).1
    have hord : ((h1 :: Hs').map fun x => ptAt P x.2).Pairwise fun x y => 0 ≤ turn L x y := by
      rw [← hHs1, List.pairwise_map]
      refine hHsort.imp_of_mem fun {x y} hx hy h => ?_
      apply turn_of_keyLe (hHhalf x hx) (hHhalf y hy)
      rw [← (hentry x (hrmem x (hHmem x hx))).2.1, ← (hentry y (hrmem y (hHmem y hy))).2.1]
      exact azLe_keyLe h
    have hstr : ∀ p ∈ (h1 :: Hs').map (fun x => ptAt P x.2), 0 < turn L (ptAt P g) p := by
      intro p hp
      rw [← hHs1] at hp
      obtain ⟨x, hx, rfl⟩ := List.mem_map.mp hp
      have hx' := hrmem x (hHmem x hx)
      refine lt_of_le_of_ne ?_ fun h => ?_
      · apply turn_of_keyLe hgH (hHhalf x hx)
        rw [← (hentry x hx').2.1, hgk]
        exact hkmin x hx'
      · have := key_of_turn hgH (hHhalf x hx) h.symm
        rw [← (hentry x hx').2.1, hgk] at this
        exact hrest x (hHmem x hx) this.symm
    have hhalfs : ∀ p ∈ (h1 :: Hs').map (fun x => ptAt P x.2), Half L p := by
      intro p hp
      rw [← hHs1] at hp
      obtain ⟨x, hx, rfl⟩ := List.mem_map.mp hp
      exact hHhalf x hx
    rw [List.map_cons] at hord hstr hhalfs
    obtain ⟨st, hst, s1, s2, s3, s4, s5, s6⟩ := scan_all D.length hgH hhalfs hord hstr
    have hPmem : ∀ p, (p ∈ P ∧ (OnLowestRay P L p → p = ptAt P g)) ↔
        p ∈ ptAt P h1.2 :: Hs'.map (fun x => ptAt P x.2) ++ [ptAt P g, L] := by
      intro p
      have hiff : p ∈ ptAt P h1.2 :: Hs'.map (fun x => ptAt P x.2) ++ [ptAt P g, L] ↔
          (∃ x ∈ Hs, ptAt P x.2 = p) ∨ p = ptAt P g ∨ p = L := by
        rw [← List.map_cons (f := fun x : (Nat × ℚ) × Nat => ptAt P x.2), ← hHs1]
        simp only [List.mem_append, List.mem_map, List.mem_cons, List.not_mem_nil, or_false]
      rw [hiff]
      constructor
      · rintro ⟨hp, hpg⟩
        rcases hall p hp with h | ⟨_, _, h⟩ | h
        · exact Or.inr (Or.inr h)
        · exact Or.inr (Or.inl (hpg h))
        · exact Or.inl h
      · rintro (⟨x, hx, rfl⟩ | rfl | rfl)
        · refine ⟨ptAt_mem (hentry x (hrmem x (hHmem x hx))).1, fun hr => ?_⟩
          have h2 := hr.2.2 _ hgray.1
          have h3 := hstr (ptAt P x.2) (by
            rw [← List.map_cons (f := fun x : (Nat × ℚ) × Nat => ptAt P x.2), ← hHs1]
            exact List.mem_map.mpr ⟨x, hx, rfl⟩)
          have e' : turn L (ptAt P x.2) (ptAt P g) = - turn L (ptAt P g) (ptAt P x.2) := by
            simp only [turn]; ring
          linarith
        · exact ⟨hgray.1, fun _ => rfl⟩
        · exact ⟨hL.1, fun h => absurd rfl h.2.1⟩
    have hscan := scan_pts P ((Hs' ++ D).map Prod.snd) [h1.2, g, leftmost P]
    have hDmap : (D.map Prod.snd).map (ptAt P) = List.replicate D.length L := by
      rw [List.map_map, List.eq_replicate_iff]
      refine ⟨by simp, ?_⟩
      intro p hp
      obtain ⟨x, hx, rfl⟩ := List.mem_map.mp hp
      exact hDL x hx
    rw [List.map_append, List.map_append, hDmap, List.map_map] at hscan
    simp only [List.map_cons, List.map_nil, hLe] at hscan
    have hst' : scanPts (List.map (ptAt P ∘ Prod.snd) Hs' ++ List.replicate D.length L) [ptAt P h1.2, ptAt P g, L] = .ok st := hst
    rw [hst'] at hscan
    cases hsc : scan P (Hs'.map Prod.snd ++ D.map Prod.snd) [h1.2, g, leftmost P] with
    | error x => rw [hsc] at hscan; cases hscan
    | ok idx =>
      rw [hsc] at hscan
      have hidx : idx.map (ptAt P) = st := by
        simp only [Except.map, Except.ok.injEq] at hscan; exact hscan
      refine ⟨st.reverse, ptAt P g, ?_, hgray, fun Q hQ => encloses_of_stack s1
        (fun p hp => s2 p ((hPmem p).mp ((hQ p).mp hp)))
        (fun top ht p hp => s3 top ht p ((hPmem p).mp ((hQ p).mp hp)))
        (fun p hp => s4 p ((hPmem p).mp ((hQ p).mp hp)))
        (fun p hp => (hQ p).mpr ((hPmem p).mpr (s5 p hp))) s6⟩
      have hch : convexhull ring ps = .ok idx.reverse := by
        unfold convexhull
        simp only [← hP, haz]
        rw [if_neg hne, hded, hrs, hHs1]
        simp only [List.cons_append, List.map_cons, List.map_append]
        cases hk : Hs'.map Prod.snd ++ D.map Prod.snd with
        | nil =>
          rw [hk] at hsc
          simp only [scan, Except.ok.injEq] at hsc
          rw [← hsc]; rfl
        | cons a l =>
          rw [hk] at hsc
          simp only [hsc]
      unfold convexHull
      rw [hch, ← hP]
      simp only [Except.map, ← hidx, List.map_reverse]

/-! ## C46 -/

/-- **C46 (part).**  When the vertices are not all on one line through the leftmost one, and the lowest ray from
it carries a single position, the polygon encloses every vertex.  Missing: several positions on that ray
(`C46_all_but_first_ray_partial`, `C46_violated_lost_vertex`), collinear input, and spherical coordinates. -/
theorem C46_encloses_partial {ring : Bool} {ps : List Pt} {L : Pt} (hL : IsLeftmost (readPts ring ps) L)
    (hnc : ∃ p ∈ readPts ring ps, ∃ q ∈ readPts ring ps, turn L p q ≠ 0)
    (hlow : ∀ p q, OnLowestRay (readPts ring ps) L p → OnLowestRay (readPts ring ps) L q → p = q) :
    ∃ H : List Pt, convexHull ring ps = .ok H ∧ Encloses H (readPts ring ps) := by
  obtain ⟨H, g, h1, h2, h3⟩ := hull_core rfl hL hnc
  exact ⟨H, h1, h3 _ fun p => ⟨fun hp => ⟨hp, fun h => hlow p g h h2⟩, fun h => h.1⟩⟩

/-- **C46 (part).**  Without the condition on the lowest ray the polygon still turns left throughout and encloses
every vertex off that ray, and it keeps one vertex on it. -/
theorem C46_all_but_first_ray_partial {ring : Bool} {ps : List Pt} {L : Pt} (hL : IsLeftmost (readPts ring ps) L)
    (hnc : ∃ p ∈ readPts ring ps, ∃ q ∈ readPts ring ps, turn L p q ≠ 0) :
    ∃ (H : List Pt) (g : Pt), convexHull ring ps = .ok H ∧ OnLowestRay (readPts ring ps) L g ∧
      ∀ Q : List Pt, (∀ p, p ∈ Q ↔ p ∈ readPts ring ps ∧ (OnLowestRay (readPts ring ps) L p → p = g)) →
        Encloses H Q := hull_core rfl hL hnc

/-- A square with inner points, given as an open string and as a ring. -/
example : IsLeftmost (readPts true [⟨0, 0⟩, ⟨4, 1⟩, ⟨4, 4⟩, ⟨2, 2⟩, ⟨0, 4⟩]) ⟨0, 4⟩ ∧
    turn (⟨0, 4⟩ : Pt) ⟨0, 0⟩ ⟨4, 1⟩ ≠ 0 ∧
    convexHull true [⟨0, 0⟩, ⟨4, 1⟩, ⟨4, 4⟩, ⟨2, 2⟩, ⟨0, 4⟩] = .ok [⟨0, 4⟩, ⟨0, 0⟩, ⟨4, 1⟩, ⟨4, 4⟩] := by
  unfold IsLeftmost
  decide +kernel

theorem dedup_indices (P : List Pt) (L : Pt) (az : List ((Nat × ℚ) × Nat)) (B : Nat → Prop) :
    ∀ (es : List ((Nat × ℚ) × Nat)) (i last : Nat) (lastpt : Pt) (indices : List Nat), (∀ e ∈ es, B e.2) →
    (∀ j ∈ indices, B j) → ∀ j ∈ dedup P L az es i last lastpt indices, B j
  | [], _, _, _, _, _, h => h
  | e :: es, i, last, lastpt, indices, hes, h => by
    rw [dedup]
    by_cases h1 : e.1 = (az.getD last ((0, 0), 0)).1
    · rw [if_pos h1]
      by_cases h2 : sqDist L (ptAt P e.2) > sqDist L lastpt
      · rw [if_pos h2]
        apply dedup_indices P L az B es _ _ _ _ (fun x hx => hes x (by simp [hx]))
        intro j hj
        rcases List.mem_append.mp hj with hj | hj
        · exact h j (List.mem_of_mem_dropLast hj)
        · simp at hj; rw [hj]; exact hes e (by simp)
      · rw [if_neg h2]
        exact dedup_indices P L az B es _ _ _ _ (fun x hx => hes x (by simp [hx])) h
    · rw [if_neg h1]
      apply dedup_indices P L az B es _ _ _ _ (fun x hx => hes x (by simp [hx]))
      intro j hj
      rcases List.mem_append.mp hj with hj | hj
      · exact h j hj
      · simp at hj; rw [hj]; exact hes e (by simp)

theorem scan_indices (P : List Pt) (B : Nat → Prop) : ∀ (is st st' : List Nat), scan P is st = .ok st' →
    (∀ j ∈ is, B j) → (∀ j ∈ st, B j) → ∀ j ∈ st', B j
  | [], st, st', h, _, hs => by rw [scan] at h; cases h; exact hs
  | i :: is, st, st', h, hi, hs => by
    rw [scan] at h
    cases hp : popWhile P i st with
    | error e => rw [hp] at h; cases h
    | ok s1 =>
      rw [hp] at h
      refine scan_indices P B is (i :: s1) st' h (fun j hj => hi j (by simp [hj])) ?_
      intro j hj
      rcases List.mem_cons.mp hj with rfl | hj
      · exact hi j (by simp)
      · exact hs j (popWhile_sub P i st s1 hp j hj)

theorem popWhile_suffix (P : List Pt) (i : Nat) : ∀ st st' : List Nat, popWhile P i st = .ok st' →
    st' <:+ st ∧ 2 ≤ st'.length
  | [], _, h => by simp [popWhile] at h
  | [_], _, h => by simp [popWhile] at h
  | b :: a :: st, st', h => by
    rw [popWhile] at h
    by_cases hl : isleft (ptAt P a) (ptAt P b) (ptAt P i) = true
    · rw [if_pos hl] at h; cases h; exact ⟨List.suffix_refl _, by simp⟩
    · rw [if_neg hl] at h
      obtain ⟨h1, h2⟩ := popWhile_suffix P i (a :: st) st' h
      exact ⟨h1.trans (List.suffix_cons _ _), h2⟩

theorem scan_last (P : List Pt) : ∀ (is st st' : List Nat), scan P is st = .ok st' → 2 ≤ st.length →
    st'.getLast? = st.getLast? ∧ 2 ≤ st'.length
  | [], st, st', h, hl => by rw [scan] at h; cases h; exact ⟨rfl, hl⟩
  | i :: is, st, st', h, hl => by
    rw [scan] at h
    cases hp : popWhile P i st with
    | error e => rw [hp] at h; cases h
    | ok s1 =>
      rw [hp] at h
      obtain ⟨⟨d, hd⟩, h2⟩ := popWhile_suffix P i st s1 hp
      obtain ⟨h3, h4⟩ := scan_last P is (i :: s1) st' h (by simp; omega)
      refine ⟨?_, h4⟩
      rw [h3, ← hd]
      cases s1 with
      | nil => simp at h2
      | cons x s1 => simp [List.getLast?_append, List.getLast?_cons]

/-- **C46 (part).**  For every input, collinear or not: whatever polygon is returned has input vertices only, at
least two of them, and begins with the leftmost one. -/
theorem C46_vertices_partial {ring : Bool} {ps H : List Pt} (h : convexHull ring ps = .ok H) :
    (∀ p ∈ H, p ∈ ps) ∧ 2 ≤ H.length ∧ ∃ L, H.head? = some L ∧ IsLeftmost ps L := by
  have hread : ∀ p ∈ readPts ring ps, p ∈ ps := by
    intro p hp
    unfold readPts at hp
    cases ring with
    | false => exact hp
    | true =>
      simp only [if_true, List.mem_append, Option.mem_toList] at hp
      rcases hp with hp | hp
      · exact hp
      · exact List.mem_of_mem_head? hp
  have hread' : ∀ p ∈ ps, p ∈ readPts ring ps := by
    intro p hp
    unfold readPts
    cases ring with
    | false => exact hp
    | true => simp [hp]
  have key : ∀ idx, convexhull ring ps = .ok idx → readPts ring ps ≠ [] ∧
      (∀ j ∈ idx, j < (readPts ring ps).length) ∧ 2 ≤ idx.length ∧
      idx.head? = some (leftmost (readPts ring ps)) := by
    intro idx hc
    unfold convexhull at hc
    by_cases hne : readPts ring ps = []
    · rw [if_pos hne] at hc; cases hc
    rw [if_neg hne] at hc
    refine ⟨hne, ?_⟩
    obtain ⟨hlt, _⟩ := leftmost_spec hne
    generalize hP : readPts ring ps = P at *
    have hent : ∀ e ∈ azimuthIndices P, e.2 < P.length := fun e he => (az_mem.mp he).1
    cases haz : azimuthIndices P with
    | nil => rw [haz] at hc; cases hc
    | cons e es =>
      rw [haz] at hc hent
      simp only at hc
      have hd := dedup_indices P (ptAt P (leftmost P)) (e :: es) (fun j => j < P.length) es 1 0 (ptAt P (leftmost P))
        [e.2] (fun x hx => hent x (by simp [hx])) (by intro j hj; simp at hj; rw [hj]; exact hent e (by simp))
      generalize dedup P (ptAt P (leftmost P)) (e :: es) es 1 0 (ptAt P (leftmost P)) [e.2] = l at hc hd
      match l, hc, hd with
      | [], hc, _ => cases hc
      | [i], hc, hd =>
        simp only [Except.ok.injEq] at hc
        subst hc
        refine ⟨?_, by simp, rfl⟩
        intro j hj
        simp only [List.mem_cons, List.not_mem_nil, or_false] at hj
        rcases hj with rfl | rfl
        · exact hlt
        · exact hd _ (by simp)
      | [i, k], hc, hd =>
        simp only [Except.ok.injEq] at hc
        subst hc
        refine ⟨?_, by simp, rfl⟩
        intro j hj
        simp only [List.mem_cons, List.not_mem_nil, or_false] at hj
        rcases hj with rfl | rfl | rfl
        · exact hlt
        · exact hd _ (by simp)
        · exact hd _ (by simp)
      | i :: k :: x :: is, hc, hd =>
        simp only at hc
        cases hs : scan P (x :: is) [k, i, leftmost P] with
        | error e => rw [hs] at hc; cases hc
        | ok st =>
          rw [hs] at hc
          simp only [Except.ok.injEq] at hc
          subst hc
          have h1 := scan_indices P (fun j => j < P.length) _ _ _ hs (fun j hj => hd j (by simp at hj ⊢; tauto)) (by
            intro j hj
            simp only [List.mem_cons, List.not_mem_nil, or_false] at hj
            rcases hj with rfl | rfl | rfl
            · exact hd _ (by simp)
            · exact hd _ (by simp)
            · exact hlt)
          obtain ⟨h2, h3⟩ := scan_last P _ _ _ hs (by simp)
          refine ⟨fun j hj => h1 j (by simpa using hj), by simpa using h3, ?_⟩
          rw [List.head?_reverse, h2]; rfl
  unfold convexHull at h
  cases hc : convexhull ring ps with
  | error e => rw [hc] at h; cases h
  | ok idx =>
    rw [hc] at h
    simp only [Except.map, Except.ok.injEq] at h
    obtain ⟨k0, k1, k2, k3⟩ := key idx hc
    subst h
    refine ⟨?_, by simpa using k2, ptAt (readPts ring ps) (leftmost (readPts ring ps)), ?_, ?_, ?_⟩
    · intro p hp
      obtain ⟨j, hj, rfl⟩ := List.mem_map.mp hp
      exact hread _ (ptAt_mem (k1 j hj))
    · rw [List.head?_map, k3]; rfl
    · exact hread _ (ptAt_mem (leftmost_spec k0).1)
    · intro p hp
      obtain ⟨i, hi, rfl⟩ := mem_ptAt (hread' p hp)
      exact (leftmost_spec k0).2 i hi

/-- **C46 is violated.**  When a nearer vertex on the lowest ray is listed after a farther one, it replaces it: the
hull of (0,0), (2,0), (1,0), (1,1) leaves (2,0) outside. -/
theorem C46_violated_lost_vertex :
    convexHull false [⟨0, 0⟩, ⟨2, 0⟩, ⟨1, 0⟩, ⟨1, 1⟩] = .ok [⟨0, 0⟩, ⟨1, 0⟩, ⟨1, 1⟩] ∧
    ¬ Conv (fun q => q ∈ ([⟨0, 0⟩, ⟨1, 0⟩, ⟨1, 1⟩] : List Pt)) ⟨2, 0⟩ := by
  refine ⟨by decide +kernel, fun h => ?_⟩
  have := turn_conv (a := ⟨1, 0⟩) (b := ⟨1, 1⟩) (fun p hp => by
    simp only [List.mem_cons, List.not_mem_nil, or_false] at hp
    rcases hp with rfl | rfl | rfl <;> decide +kernel) h
  exact absurd this (by decide +kernel)

/-- **C46 is violated.**  The same happens to collinear input: the far end point is dropped. -/
theorem C46_violated_collinear :
    convexHull false [⟨0, 0⟩, ⟨2, 0⟩, ⟨1, 0⟩] = .ok [⟨0, 0⟩, ⟨1, 0⟩] ∧
    ¬ Conv (fun q => q ∈ ([⟨0, 0⟩, ⟨1, 0⟩] : List Pt)) ⟨2, 0⟩ := by
  refine ⟨by decide +kernel, fun h => ?_⟩
  have := turn_conv (a := ⟨1, 0⟩) (b := ⟨1, 1⟩) (fun p hp => by
    simp only [List.mem_cons, List.not_mem_nil, or_false] at hp
    rcases hp with rfl | rfl <;> decide +kernel) h
  exact absurd this (by decide +kernel)

/-- **C46 is violated.**  Copies of the leftmost vertex make the scan run out of vertices when the other vertices
lie in one direction; and a single vertex always raises. -/
theorem C46_violated_raises :
    convexHull false [⟨0, 0⟩, ⟨1, 0⟩, ⟨0, 0⟩, ⟨0, 0⟩] = .error .indexError ∧
    ∀ p : Pt, convexHull false [p] = .error .indexError := by
  refine ⟨by decide +kernel, fun p => ?_⟩
  have : azimuthIndices [p] = [] := by
    unfold azimuthIndices leftmost
    simp
  simp [convexHull, convexhull, readPts, this, Except.map]

end Karta.Vec.Hull
