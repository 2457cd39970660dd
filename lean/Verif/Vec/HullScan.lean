import Verif.Vec.HullLemmas

namespace Karta.Vec.Hull
open Karta Karta.Vec

variable {K : Type} [Field K] [LinearOrder K] [IsStrictOrderedRing K]

/-- The head of a stack `pre ++ [g, L]`. -/
theorem stack_head {L g : P2 K} (pre : List (P2 K)) : ∃ a r, pre ++ [g, L] = a :: r ∧
    ((pre = [] ∧ a = g ∧ r = [L]) ∨ ∃ pre', pre = a :: pre' ∧ r = pre' ++ [g, L]) := by
  cases pre with
  | nil => exact ⟨g, [L], rfl, Or.inl ⟨rfl, rfl, rfl⟩⟩
  | cons a pre => exact ⟨a, pre ++ [g, L], rfl, Or.inr ⟨pre, rfl, rfl⟩⟩

theorem Good.order {L g b : P2 K} {pre : List (P2 K)} (h : Good L g (b :: pre)) {p : P2 K} (hp : p ∈ b :: pre ++ [g, L]) :
    0 ≤ turn L p b := by
  simp only [List.cons_append, List.mem_cons, List.mem_append, List.not_mem_nil, or_false] at hp
  rcases hp with rfl | hp | rfl | rfl
  · exact (turn_self_right _ _).ge
  · exact (List.pairwise_cons.mp h.ord).1 p hp
  · exact (h.str b (by simp)).le
  · exact (turn_L_left _ _).ge

/-- The new vertex is on the left of all edges of the hull so far. -/
theorem new_left {L g i : P2 K} : ∀ (pre : List (P2 K)), Good L g pre → Half L i → (∀ x ∈ pre, 0 ≤ turn L x i) →
    0 < turn L g i → (∀ a b r, pre ++ [g, L] = b :: a :: r → 0 < turn a b i) → AllLeft i (pre ++ [g, L])
  | [], _, _, _, hs, _ => ⟨hs.le, trivial⟩
  | b :: pre, hg, hi, hx, hs, ht => by
    obtain ⟨a, r, har, hc⟩ := stack_head (L := L) (g := g) pre
    have htop : 0 < turn a b i := ht a b r (by rw [List.cons_append, har])
    have hrec : AllLeft i (pre ++ [g, L]) := by
      apply new_left pre hg.tail hi (fun x h => hx x (by simp [h])) hs
      intro a0 a' r' h
      rcases hc with ⟨hp, rfl, rfl⟩ | ⟨pre', hp, hr⟩
      · rw [hp] at h
        simp only [List.nil_append, List.cons.injEq] at h
        obtain ⟨rfl, rfl, _⟩ := h
        exact hs
      · rw [har] at h
        simp only [List.cons.injEq] at h
        obtain ⟨rfl, hr'⟩ := h
        have hmem : a ∈ b :: pre := by rw [hp]; simp
        have hturn : 0 < turn a0 a b := by
          have := hg.turns
          rw [List.cons_append, har, hr'] at this
          exact this.1
        have h0a : 0 ≤ turn L a0 a := by
          have hga := hg.tail
          rw [hp] at hga
          apply hga.order
          rw [List.cons_append, ← hr, hr']; simp
        have hab : 0 ≤ turn L a b := hg.order (by rw [hp]; simp)
        have hai : 0 ≤ turn L a i := hx a hmem
        have hbi : 0 ≤ turn L b i := hx b (by simp)
        have haip : 0 < turn L a i := by
          refine lt_of_le_of_ne hai fun h => ?_
          obtain ⟨h1, h2⟩ := tie_zero (hg.half a hmem) (hg.half b (by simp)) hi hab hbi h.symm
          have : turn a b i = turn L a b + turn L b i - turn L a i := by simp only [turn]; ring
          rw [h1, h2, ← h] at this
          linarith
        have id : turn L a b * turn a0 a i = turn L a0 a * turn a b i + turn L a i * turn a0 a b := by
          simp only [turn]; ring
        have hpos : 0 < turn L a b * turn a0 a i := by
          rw [id]
          have := mul_nonneg h0a htop.le
          have := mul_pos haip hturn
          linarith
        by_contra hneg
        have := mul_nonpos_of_nonneg_of_nonpos hab (not_lt.mp hneg)
        linarith
    rw [List.cons_append, har]
    rw [har] at hrec
    exact ⟨htop.le, hrec⟩

/-- The hull so far is on the left of the new edge. -/
theorem old_left {L g i b : P2 K} {pre : List (P2 K)} (hg : Good L g (b :: pre))
    (he : ∀ p ∈ b :: pre ++ [g, L], AllLeft p (b :: pre ++ [g, L])) (hi : Half L i)
    (hx : ∀ x ∈ b :: pre, 0 ≤ turn L x i) (hs : 0 < turn L g i)
    (ht : ∀ a b' r, b :: pre ++ [g, L] = b' :: a :: r → 0 < turn a b' i) :
    ∀ p ∈ b :: pre ++ [g, L], 0 ≤ turn b i p := by
  intro p hp
  obtain ⟨a, r, har, hc⟩ := stack_head (L := L) (g := g) pre
  have htop : 0 < turn a b i := ht a b r (by rw [List.cons_append, har])
  by_cases hpL : p = L
  · have : turn b i L = turn L b i := by simp only [turn]; ring
    rw [hpL, this]; exact hx b (by simp)
  have hpa : 0 ≤ turn a b p := by
    have := he p hp
    rw [List.cons_append, har] at this
    exact this.1
  have hpb : 0 ≤ turn L p b := hg.order hp
  have hab : 0 ≤ turn L a b := hg.order (by rw [List.cons_append, har]; simp)
  have habp : 0 < turn L a b := by
    refine lt_of_le_of_ne hab fun h => ?_
    rcases hc with ⟨_, rfl, _⟩ | ⟨pre', hpp, hr⟩
    · exact absurd h.symm (hg.str b (by simp)).ne'
    · have hmem : a ∈ b :: pre := by rw [hpp]; simp
      obtain ⟨a0, r0, hr0, _⟩ := stack_head (L := L) (g := g) pre'
      have hturn : 0 < turn a0 a b := by
        have := hg.turns
        rw [List.cons_append, har, hr, hr0] at this
        exact this.1
      have h0a : 0 ≤ turn L a0 a := by
        have hga := hg.tail
        rw [hpp] at hga
        apply hga.order
        rw [List.cons_append, hr0]; simp
      obtain ⟨m, m0, m1, ex, ey⟩ := nearer (hg.half a hmem) (hg.half b (by simp)) h.symm h0a hturn
      have : turn a b i = (m - 1) * turn L a i := by
        have bx : b.x = L.x + m * (a.x - L.x) := by linarith
        have byy : b.y = L.y + m * (a.y - L.y) := by linarith
        simp only [turn, bx, byy]; ring
      have hai : 0 ≤ turn L a i := hx a hmem
      have := mul_nonneg (by linarith : 0 ≤ 1 - m) hai
      linarith
  have id : turn L a b * turn b i p = turn L b i * turn a b p + turn L p b * turn a b i := by
    simp only [turn]; ring
  have hnn : 0 ≤ turn L a b * turn b i p := by
    rw [id]
    have := mul_nonneg (hx b (by simp)) hpa
    have := mul_nonneg hpb htop.le
    linarith
  by_contra hneg
  have := mul_neg_of_pos_of_neg habp (not_le.mp hneg)
  linarith

theorem allLeft_suffix {p : P2 K} : ∀ (d l : List (P2 K)), AllLeft p (d ++ l) → AllLeft p l
  | [], _, h => h
  | [b], l, h => by cases l with
    | nil => trivial
    | cons a r => exact h.2
  | b :: a :: d, l, h => allLeft_suffix (a :: d) l h.2

theorem Good.suffix {L g : P2 K} : ∀ (d : List (P2 K)) {pre : List (P2 K)}, Good L g (d ++ pre) → Good L g pre
  | [], _, h => h
  | _ :: d, _, h => Good.suffix d h.tail

/-- The scan step for a vertex other than a copy of the leftmost one. -/
theorem push_half {L g i : P2 K} {pre : List (P2 K)} (hg : Good L g pre)
    (he : ∀ p ∈ pre ++ [g, L], AllLeft p (pre ++ [g, L])) (hi : Half L i)
    (hx : ∀ x ∈ pre, 0 ≤ turn L x i) (hs : 0 < turn L g i) :
    ∃ pre' : List (P2 K), popPts i (pre ++ [g, L]) = .ok (pre' ++ [g, L]) ∧ Good L g (i :: pre') ∧
      (∀ p ∈ i :: pre' ++ [g, L], AllLeft p (i :: pre' ++ [g, L])) ∧ (∀ x ∈ pre', x ∈ pre) ∧
      ∀ x ∈ pre, Conv (fun p => p ∈ i :: pre' ++ [g, L]) x := by
  obtain ⟨pre', d, e1, e2, e3, _, e5⟩ := popPts_spec pre hg (Or.inl hi) hx (fun _ => hs)
  have hsub : ∀ x ∈ pre', x ∈ pre := fun x h => by rw [e1]; simp [h]
  have hg' : Good L g pre' := by rw [e1] at hg; exact hg.suffix d
  have he' : ∀ p ∈ pre' ++ [g, L], AllLeft p (pre' ++ [g, L]) := by
    intro p hp
    have : AllLeft p (pre ++ [g, L]) := he p (by rw [e1]; simp at hp ⊢; tauto)
    rw [e1, List.append_assoc] at this
    exact allLeft_suffix d _ this
  have hnew : AllLeft i (pre' ++ [g, L]) := new_left pre' hg' hi (fun x h => hx x (hsub x h)) hs e3
  obtain ⟨b, r, hbr, hc⟩ := stack_head (L := L) (g := g) pre'
  have hold : ∀ p ∈ pre' ++ [g, L], 0 ≤ turn b i p := by
    rcases hc with ⟨hp, rfl, _⟩ | ⟨pre'', hp, _⟩
    · intro p hpm
      rw [hp] at hpm
      simp only [List.nil_append, List.mem_cons, List.not_mem_nil, or_false] at hpm
      rcases hpm with rfl | rfl
      · have : turn p i p = 0 := by simp only [turn]; ring
        exact this.ge
      · have : turn b i p = turn p b i := by simp only [turn]; ring
        rw [this]; exact hs.le
    · rw [hp]
      rw [hp] at hg' he' e3
      exact old_left hg' he' hi (fun x h => hx x (hsub x (by rw [hp]; exact h))) hs e3
  refine ⟨pre', e2, ⟨hg.halfg, ?_, ?_, ?_, ?_⟩, ?_, hsub, ?_⟩
  · intro x h
    rcases List.mem_cons.mp h with rfl | h
    · exact hi
    · exact hg'.half x h
  · exact List.pairwise_cons.mpr ⟨fun x h => hx x (hsub x h), hg'.ord⟩
  · intro x h
    rcases List.mem_cons.mp h with rfl | h
    · exact hs
    · exact hg'.str x h
  · have ht := hg'.turns
    rw [List.cons_append]
    rw [hbr] at ht ⊢
    cases r with
    | nil => trivial
    | cons a r =>
      exact ⟨e3 a b r hbr, ht⟩
  · intro p hp
    rw [List.cons_append] at hp ⊢
    rcases List.mem_cons.mp hp with rfl | hp
    · rw [hbr] at hnew ⊢
      exact ⟨(turn_self_right _ _).ge, hnew⟩
    · have h1 := hold p hp
      have h2 := he' p hp
      rw [hbr] at h2 ⊢
      exact ⟨h1, h2⟩
  · intro x h
    rw [e1] at h
    rcases List.mem_append.mp h with h | h
    · exact e5 x h
    · exact .base (by simp [h])

/-- Point-level version of the scan. -/
def scanPts : List (P2 K) → List (P2 K) → Except Err (List (P2 K))
  | [], st => .ok st
  | i :: is, st =>
    match popPts i st with
    | .error e => .error e
    | .ok st' => scanPts is (i :: st')

theorem scanPts_cons {i : P2 K} {is st st' : List (P2 K)} (h : popPts i st = .ok st') :
    scanPts (i :: is) st = scanPts is (i :: st') := by
  simp only [scanPts, h]

theorem scan_half {L g : P2 K} (tail : List (P2 K)) : ∀ (is pre : List (P2 K)), pre ≠ [] → Good L g pre →
    (∀ p ∈ pre ++ [g, L], AllLeft p (pre ++ [g, L])) → (∀ i ∈ is, Half L i) →
    is.Pairwise (fun x y => 0 ≤ turn L x y) → (∀ x ∈ pre, ∀ i ∈ is, 0 ≤ turn L x i) →
    (∀ i ∈ is, 0 < turn L g i) →
    ∃ pre' : List (P2 K), pre' ≠ [] ∧ scanPts (is ++ tail) (pre ++ [g, L]) = scanPts tail (pre' ++ [g, L]) ∧
      Good L g pre' ∧ (∀ p ∈ pre' ++ [g, L], AllLeft p (pre' ++ [g, L])) ∧
      (∀ x ∈ pre', x ∈ is ∨ x ∈ pre) ∧
      ∀ x, x ∈ is ∨ x ∈ pre → Conv (fun p => p ∈ pre' ++ [g, L]) x
  | [], pre, hne, hg, he, _, _, _, _ =>
    ⟨pre, hne, rfl, hg, he, fun x h => Or.inr h, fun x h => by
      rcases h with h | h
      · simp at h
      · exact .base (by simp [h])⟩
  | i :: is, pre, hne, hg, he, hh, ho, hx, hs => by
    obtain ⟨pre1, e1, hg1, he1, hsub, hcv⟩ := push_half hg he (hh i (by simp))
      (fun x h => hx x h i (by simp)) (hs i (by simp))
    have ho' := List.pairwise_cons.mp ho
    obtain ⟨pre', hne', e2, hg', he', hsub', hcv'⟩ := scan_half tail is (i :: pre1) (by simp) hg1 he1
      (fun j h => hh j (by simp [h])) ho'.2
      (fun x h j hj => by
        rcases List.mem_cons.mp h with rfl | h
        · exact ho'.1 j hj
        · exact hx x (hsub x h) j (by simp [hj]))
      (fun j h => hs j (by simp [h]))
    refine ⟨pre', hne', ?_, hg', he', ?_, ?_⟩
    · rw [List.cons_append, scanPts_cons e1]; exact e2
    · intro x h
      rcases hsub' x h with h | h
      · exact Or.inl (by simp [h])
      · rcases List.mem_cons.mp h with rfl | h
        · exact Or.inl (by simp)
        · exact Or.inr (hsub x h)
    · have key : ∀ x, x ∈ i :: pre1 ++ [g, L] → Conv (fun p => p ∈ pre' ++ [g, L]) x := by
        intro x h
        rw [List.mem_append] at h
        rcases h with h | h
        · exact hcv' x (Or.inr h)
        · exact .base (by simp at h ⊢; tauto)
      intro x h
      rcases h with h | h
      · rcases List.mem_cons.mp h with rfl | h
        · exact hcv' x (Or.inr (by simp))
        · exact hcv' x (Or.inl h)
      · exact conv_mono key (hcv x h)

/-- What the scan leaves behind. -/
structure Final (L g : P2 K) (pre st : List (P2 K)) : Prop where
  turns : Turns st
  left : ∀ p ∈ pre ++ [g, L], AllLeft p st
  closing : ∀ top, st.head? = some top → ∀ p ∈ pre ++ [g, L], 0 ≤ turn top L p
  conv : ∀ p ∈ pre ++ [g, L], Conv (fun q => q ∈ st) p
  sub : ∀ p ∈ st, p ∈ pre ++ [g, L]
  last : st.getLast? = some L

theorem final_of_good {L g : P2 K} {pre : List (P2 K)} (hne : pre ≠ []) (hg : Good L g pre)
    (he : ∀ p ∈ pre ++ [g, L], AllLeft p (pre ++ [g, L])) : Final L g pre (pre ++ [g, L]) := by
  refine ⟨hg.turns, he, ?_, fun p h => .base h, fun p h => h, by simp⟩
  intro top htop p hp
  cases pre with
  | nil => exact absurd rfl hne
  | cons b pre =>
    simp only [List.cons_append, List.head?_cons, Option.some.injEq] at htop
    subst htop
    have : turn b L p = turn L p b := by simp only [turn]; ring
    rw [this]; exact hg.order hp

theorem allLeft_L {L g : P2 K} : ∀ (pre : List (P2 K)), Good L g pre → AllLeft L (pre ++ [g, L])
  | [], _ => ⟨(turn_L_right _ _).ge, trivial⟩
  | b :: pre, hg => by
    obtain ⟨a, r, har, _⟩ := stack_head (L := L) (g := g) pre
    have := allLeft_L pre hg.tail
    rw [List.cons_append, har]
    rw [har] at this
    refine ⟨?_, this⟩
    have e : turn a b L = turn L a b := by simp only [turn]; ring
    rw [e]
    exact hg.order (by rw [List.cons_append, har]; simp)

theorem scan_again {L g : P2 K} {pre : List (P2 K)} (hne : pre ≠ [])
    (h3 : ∀ a b r, pre ++ [g, L] = b :: a :: r → 0 < turn a b L) :
    ∀ k : Nat, scanPts (List.replicate k L) (L :: (pre ++ [g, L])) = .ok (L :: (pre ++ [g, L]))
  | 0 => rfl
  | k + 1 => by
    cases pre with
    | nil => exact absurd rfl hne
    | cons b pre =>
      obtain ⟨a, r, har, _⟩ := stack_head (L := L) (g := g) pre
      have h1 : isleft b L L = false := by
        have : turn b L L = 0 := by simp only [turn]; ring
        simp [isleft, this]
      have h2 : isleft a b L = true := by
        have := h3 a b r (by rw [List.cons_append, har])
        simpa [isleft] using this
      have hp : popPts L (L :: (b :: pre ++ [g, L])) = .ok (b :: pre ++ [g, L]) := by
        rw [List.cons_append, har]
        simp [popPts, h1, h2]
      rw [List.replicate_succ, scanPts_cons hp]
      exact scan_again hne h3 k

/-- Copies of the leftmost vertex come last; the scan absorbs them. -/
theorem scan_dups {L g : P2 K} {pre : List (P2 K)} (hne : pre ≠ []) (hg : Good L g pre)
    (he : ∀ p ∈ pre ++ [g, L], AllLeft p (pre ++ [g, L])) (k : Nat) :
    ∃ st : List (P2 K), scanPts (List.replicate k L) (pre ++ [g, L]) = .ok st ∧ Final L g pre st := by
  cases k with
  | zero => exact ⟨_, rfl, final_of_good hne hg he⟩
  | succ k =>
    obtain ⟨pre', d, e1, e2, e3, e4, e5⟩ := popPts_spec (i := L) pre hg (Or.inr ⟨rfl, hne⟩)
      (fun x _ => (turn_L_right _ _).ge) (fun h => by rcases h with h | ⟨_, h⟩ <;> exact absurd h (lt_irrefl _))
    obtain ⟨top, r, ht1, ht2⟩ := e4 rfl
    have hne' : pre' ≠ [] := by rw [ht1]; simp
    have hg' : Good L g pre' := by rw [e1] at hg; exact hg.suffix d
    have hsub : ∀ x ∈ pre', x ∈ pre := fun x h => by rw [e1]; simp [h]
    have he' : ∀ p ∈ pre ++ [g, L], AllLeft p (pre' ++ [g, L]) := by
      intro p hp
      have : AllLeft p (pre ++ [g, L]) := he p hp
      rw [e1, List.append_assoc] at this
      exact allLeft_suffix d _ this
    have hmax : ∀ p ∈ pre ++ [g, L], 0 ≤ turn top L p := by
      intro p hp
      have e : turn top L p = turn L p top := by simp only [turn]; ring
      rw [e]
      rw [e1, List.append_assoc, List.mem_append] at hp
      rcases hp with hp | hp
      · have := ht2 p hp
        have e' : turn L p top = - turn L top p := by simp only [turn]; ring
        rw [e', this, neg_zero]
      · rw [ht1] at hg' hp
        exact hg'.order hp
    refine ⟨L :: (pre' ++ [g, L]), ?_, ?_, ?_, ?_, ?_, ?_, ?_⟩
    · rw [List.replicate_succ, scanPts_cons e2]
      exact scan_again hne' e3 k
    · have ht := hg'.turns
      rw [ht1] at ht e3 ⊢
      obtain ⟨a, r', har, _⟩ := stack_head (L := L) (g := g) r
      rw [List.cons_append, har] at ht ⊢
      exact ⟨e3 a top r' (by rw [List.cons_append, har]), ht⟩
    · intro p hp
      have h1 := hmax p hp
      have h2 := he' p hp
      rw [ht1, List.cons_append] at h2 ⊢
      exact ⟨h1, h2⟩
    · intro t ht p hp
      simp only [List.head?_cons, Option.some.injEq] at ht
      rw [← ht]
      have : turn L L p = 0 := turn_L_left _ _
      exact this.ge
    · intro p hp
      rw [e1, List.append_assoc, List.mem_append] at hp
      rcases hp with hp | hp
      · exact e5 p hp
      · exact .base (by simp at hp ⊢; tauto)
    · intro p hp
      simp only [List.mem_cons, List.mem_append, List.not_mem_nil, or_false] at hp ⊢
      rcases hp with rfl | hp | hp
      · simp
      · exact Or.inl (hsub p hp)
      · exact Or.inr hp
    · rw [List.getLast?_cons, List.getLast?_append]; rfl

/-- The whole scan: `g` in the lowest direction, then `j :: is` in the other directions in order, then copies
of the leftmost vertex. -/
theorem scan_all {L g j : P2 K} {is : List (P2 K)} (k : Nat) (hg : Half L g) (hh : ∀ i ∈ j :: is, Half L i)
    (ho : (j :: is).Pairwise (fun x y => 0 ≤ turn L x y)) (hs : ∀ i ∈ j :: is, 0 < turn L g i) :
    ∃ st : List (P2 K), scanPts (is ++ List.replicate k L) [j, g, L] = .ok st ∧ Turns st ∧
      (∀ p ∈ j :: is ++ [g, L], AllLeft p st) ∧
      (∀ top, st.head? = some top → ∀ p ∈ j :: is ++ [g, L], 0 ≤ turn top L p) ∧
      (∀ p ∈ j :: is ++ [g, L], Conv (fun q => q ∈ st) p) ∧
      (∀ p ∈ st, p ∈ j :: is ++ [g, L]) ∧ st.getLast? = some L := by
  have hj := hs j (by simp)
  have g0 : Good L g [j] := by
    refine ⟨hg, ?_, by simp, ?_, hj, trivial⟩
    · intro x h; exact hh x (by simp at h; simp [h])
    · intro x h; exact hs x (by simp at h; simp [h])
  have he0 : ∀ p ∈ [j] ++ [g, L], AllLeft p ([j] ++ [g, L]) := by
    intro p hp
    simp only [List.cons_append, List.nil_append, List.mem_cons, List.not_mem_nil, or_false] at hp
    refine ⟨?_, ?_, trivial⟩
    · rcases hp with rfl | rfl | rfl
      · exact (turn_self_right _ _).ge
      · have : turn p j p = 0 := by simp only [turn]; ring
        exact this.ge
      · have : turn g j p = turn p g j := by simp only [turn]; ring
        rw [this]; exact hj.le
    · rcases hp with rfl | rfl | rfl
      · exact hj.le
      · exact (turn_self_right _ _).ge
      · exact (turn_L_right _ _).ge
  have ho' := List.pairwise_cons.mp ho
  obtain ⟨pre, hne, e1, hg1, he1, hsub, hcv⟩ := scan_half (List.replicate k L) is [j] (by simp) g0 he0
    (fun i h => hh i (by simp [h])) ho'.2
    (fun x h i hi => by simp only [List.mem_cons, List.not_mem_nil, or_false] at h; rw [h]; exact ho'.1 i hi)
    (fun i h => hs i (by simp [h]))
  obtain ⟨st, e2, hf⟩ := scan_dups hne hg1 he1 k
  have hall : ∀ p ∈ j :: is ++ [g, L], Conv (fun q => q ∈ pre ++ [g, L]) p := by
    intro p hp
    simp only [List.cons_append, List.mem_cons, List.mem_append, List.not_mem_nil, or_false] at hp
    rcases hp with rfl | hp | hp
    · exact hcv p (Or.inr (by simp))
    · exact hcv p (Or.inl hp)
    · exact .base (by simp [hp])
  have hAll : ∀ (l : List (P2 K)), (∀ p ∈ pre ++ [g, L], AllLeft p l) → ∀ p ∈ j :: is ++ [g, L], AllLeft p l := by
    intro l
    induction l with
    | nil => intro _ _ _; trivial
    | cons b l ih =>
      cases l with
      | nil => intro _ _ _; trivial
      | cons a l =>
        intro h p hp
        exact ⟨turn_conv (fun q hq => (h q hq).1) (hall p hp), ih (fun q hq => (h q hq).2) p hp⟩
  refine ⟨st, ?_, hf.turns, hAll st hf.left, ?_, ?_, ?_, hf.last⟩
  · rw [← e2, ← e1]; rfl
  · intro top ht p hp
    exact turn_conv (fun q hq => hf.closing top ht q hq) (hall p hp)
  · intro p hp
    exact conv_mono hf.conv (hall p hp)
  · intro p hp
    have := hf.sub p hp
    simp only [List.cons_append, List.mem_cons, List.mem_append, List.not_mem_nil, or_false] at this ⊢
    rcases this with h | h
    · rcases hsub p h with h | h
      · exact Or.inr (Or.inl h)
      · simp at h; exact Or.inl h
    · exact Or.inr (Or.inr h)

theorem turns_split : ∀ (l : List (P2 K)) (a b c : P2 K) (r : List (P2 K)), Turns (l ++ c :: b :: a :: r) → 0 < turn a b c
  | [], _, _, _, _, h => h.1
  | [x], a, b, c, r, h => by exact h.2.1
  | [x, y], a, b, c, r, h => by exact h.2.2.1
  | x :: y :: z :: l, a, b, c, r, h => turns_split (y :: z :: l) a b c r h.2

theorem allLeft_split {p : P2 K} : ∀ (l : List (P2 K)) (a b : P2 K) (r : List (P2 K)), AllLeft p (l ++ b :: a :: r) → 0 ≤ turn a b p
  | [], _, _, _, h => h.1
  | [x], a, b, r, h => h.2.1
  | x :: y :: l, a, b, r, h => allLeft_split (y :: l) a b r h.2

end Karta.Vec.Hull
