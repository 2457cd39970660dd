import Verif.Grid.Sample
import Verif.Grid.WindowProps

/-!
Properties C16 (bilinear sampling) and C17 (nearest-neighbour sampling).
-/

namespace Karta.Grid
open Karta Karta.Band Karta.Band.Spec Karta.Band.Indexer

variable {α β : Type _}

/-! ### Specification -/

/-- Bilinear interpolation at row position `i` and column position `j` of an image whose cell centres
are at the integers. -/
def interp (P : Int → Int → ℚ) (i j : ℚ) : ℚ :=
  (1 - (i - ⌊i⌋)) * ((1 - (j - ⌊j⌋)) * P ⌊i⌋ ⌊j⌋ + (j - ⌊j⌋) * P ⌊i⌋ (⌊j⌋ + 1)) +
  (i - ⌊i⌋) * ((1 - (j - ⌊j⌋)) * P (⌊i⌋ + 1) ⌊j⌋ + (j - ⌊j⌋) * P (⌊i⌋ + 1) (⌊j⌋ + 1))

/-- The point at row position `i` and column position `j` (cell centres at the integers). -/
def Xform.point (T : Xform) (i j : ℚ) : ℚ × ℚ := T.at (i + 1 / 2) (j + 1 / 2)

/-- The position lies in the hull of the cell centres of an `H × W` grid. -/
def InHull (H W : Nat) (i j : ℚ) : Prop := 0 ≤ i ∧ i ≤ (H : ℚ) - 1 ∧ 0 ≤ j ∧ j ≤ (W : ℚ) - 1

instance (H W : Nat) (i j : ℚ) : Decidable (InHull H W i j) := by unfold InHull; infer_instance

/-! ### Brackets -/

theorem bracket_lerp (f : Int → ℚ) (i : ℚ) :
    f (bracket i).1 * (((bracket i).2 : ℚ) - i) + f (bracket i).2 * (i - ((bracket i).1 : ℚ)) =
      (1 - (i - ⌊i⌋)) * f ⌊i⌋ + (i - ⌊i⌋) * f (⌊i⌋ + 1) := by
  unfold bracket
  by_cases h : i ≠ (⌊i⌋ : ℚ)
  · rw [if_pos h]; push_cast; ring
  · rw [if_neg h]
    push Not at h
    by_cases h0 : i ≠ 0
    · rw [if_pos h0]
      have e : i - (⌊i⌋ : ℚ) = 0 := by linarith
      push_cast
      rw [show (⌊i⌋ : ℚ) - i = 0 by linarith, show i - ((⌊i⌋ : ℚ) - 1) = 1 by linarith, e]
      ring
    · rw [if_neg h0]; push_cast; ring

theorem weighted_eq (Z : Int → Int → ℚ) (i j : ℚ) : weighted Z i j = interp Z i j := by
  have h1 := bracket_lerp (Z (bracket i).1) j
  have h2 := bracket_lerp (Z (bracket i).2) j
  have h3 := bracket_lerp (fun r => (1 - (j - ⌊j⌋)) * Z r ⌊j⌋ + (j - ⌊j⌋) * Z r (⌊j⌋ + 1)) i
  unfold weighted interp
  simp only
  rw [← h3, ← h1, ← h2]
  ring

theorem weighted_congr {Z Z' : Int → Int → ℚ} {i j : ℚ}
    (h : ∀ r c, (r = (bracket i).1 ∨ r = (bracket i).2) → (c = (bracket j).1 ∨ c = (bracket j).2) →
      Z r c = Z' r c) : weighted Z i j = weighted Z' i j := by
  unfold weighted
  simp only
  rw [h _ _ (Or.inl rfl) (Or.inl rfl), h _ _ (Or.inl rfl) (Or.inr rfl), h _ _ (Or.inr rfl) (Or.inl rfl),
    h _ _ (Or.inr rfl) (Or.inr rfl)]

theorem interp_shift (P : Int → Int → ℚ) (a b : Int) (i j : ℚ) :
    interp (fun r c => P (a + r) (b + c)) (i - a) (j - b) = interp P i j := by
  unfold interp
  rw [Int.floor_sub_intCast, Int.floor_sub_intCast]
  push_cast
  have e1 : a + (⌊i⌋ - a) = ⌊i⌋ := by ring
  have e2 : b + (⌊j⌋ - b) = ⌊j⌋ := by ring
  have e3 : a + (⌊i⌋ - a + 1) = ⌊i⌋ + 1 := by ring
  have e4 : b + (⌊j⌋ - b + 1) = ⌊j⌋ + 1 := by ring
  simp only [e1, e2, e3, e4]
  ring

/-- The two indices are neighbours and enclose the position. -/
theorem bracket_bounds (i : ℚ) : (bracket i).2 = (bracket i).1 + 1 ∧ ((bracket i).1 : ℚ) ≤ i ∧ i ≤ (bracket i).2 := by
  have h0 := Int.floor_le i
  have h1 := Int.lt_floor_add_one i
  unfold bracket
  split_ifs with a b
  · exact ⟨rfl, h0, by push_cast; linarith⟩
  · push Not at a
    exact ⟨by simp, by push_cast; linarith, by simp [← a]⟩
  · exact ⟨rfl, h0, by push_cast; linarith⟩

/-- Inside the window, the neighbours of a position in the hull exist. -/
theorem bracket_inside {n : Nat} {lo hi : Int} {i : ℚ} (h0 : 0 ≤ i) (h1 : i ≤ (n : ℚ) - 1)
    (hlo : lo ≤ max (⌊i⌋ - 1) 0) (hlo0 : 0 ≤ lo) (hhi : min ⌈i + 1⌉ (n : Int) ≤ hi) (hw : 2 ≤ hi - lo) :
    0 ≤ (bracket (i - lo)).1 ∧ (bracket (i - lo)).2 < hi - lo := by
  have f0 := Int.floor_le i
  have f1 := Int.lt_floor_add_one i
  have g0 : 0 ≤ ⌊i⌋ := Int.floor_nonneg.2 h0
  have g1 : ⌊i⌋ ≤ (n : Int) - 1 := by
    have : (⌊i⌋ : ℚ) ≤ (n : ℚ) - 1 := by linarith
    have : ((⌊i⌋ : Int) : ℚ) ≤ (((n : Int) - 1 : Int) : ℚ) := by push_cast; exact this
    exact_mod_cast this
  unfold bracket
  rw [Int.floor_sub_intCast]
  by_cases a : i - lo ≠ ((⌊i⌋ - lo : Int) : ℚ)
  · rw [if_pos a]
    have a' : (⌊i⌋ : ℚ) < i := by
      refine lt_of_le_of_ne f0 (fun h => a ?_)
      push_cast; rw [h]
    have c1 : ⌊i⌋ + 2 ≤ ⌈i + 1⌉ := by
      have : ⌊i⌋ + 1 < ⌈i + 1⌉ := Int.lt_ceil.2 (by push_cast; linarith)
      omega
    have g2 : ⌊i⌋ + 1 ≤ (n : Int) - 1 := by
      have : (⌊i⌋ : ℚ) < (n : ℚ) - 1 := by linarith
      have : ((⌊i⌋ : Int) : ℚ) < (((n : Int) - 1 : Int) : ℚ) := by push_cast; exact this
      have : ⌊i⌋ < (n : Int) - 1 := by exact_mod_cast this
      omega
    simp only
    omega
  · rw [if_neg a]
    push Not at a
    have a' : i = (⌊i⌋ : ℚ) := by push_cast at a; linarith
    have c1 : ⌊i⌋ + 1 ≤ ⌈i + 1⌉ := by
      have : ((⌊i⌋ + 1 : Int) : ℚ) ≤ ⌈i + 1⌉ := by
        push_cast; rw [← a']; exact Int.le_ceil _
      exact_mod_cast this
    by_cases b : i - lo ≠ 0
    · rw [if_pos b]
      have b' : ⌊i⌋ ≠ lo := fun h => b (by rw [a', h]; simp)
      simp only
      omega
    · rw [if_neg b]
      push Not at b
      have b' : ⌊i⌋ = lo := by
        have : (⌊i⌋ : ℚ) = lo := by linarith
        exact_mod_cast this
      simp only
      omega

/-- Outside the hull, a neighbour is missing. -/
theorem bracket_outside {n : Nat} {lo hi : Int} {i : ℚ} (h : i < 0 ∨ (n : ℚ) - 1 < i)
    (hlo : i < 0 → lo = 0) (hhi : hi ≤ n) :
    ¬ (0 ≤ (bracket (i - lo)).1 ∧ (bracket (i - lo)).2 < hi - lo) := by
  obtain ⟨b1, b2, b3⟩ := bracket_bounds (i - lo)
  rintro ⟨c1, c2⟩
  rcases h with h | h
  · have h0 := hlo h
    subst h0
    have : ((bracket (i - (0 : Int))).1 : ℚ) < 0 := by push_cast at b2 ⊢; linarith
    have : (bracket (i - (0 : Int))).1 < 0 := by exact_mod_cast this
    omega
  · have : (((n : Int) - 1 - lo : Int) : ℚ) < ((bracket (i - lo)).2 : ℚ) := by push_cast; linarith
    have : (n : Int) - 1 - lo < (bracket (i - lo)).2 := by exact_mod_cast this
    omega

/-! ### Windows -/

theorem foldl_min_le (q : ℚ) (qs : List ℚ) : vmin q qs ≤ q ∧ ∀ x ∈ qs, vmin q qs ≤ x := by
  unfold vmin
  induction qs generalizing q with
  | nil => simp
  | cons a as ih =>
    simp only [List.foldl_cons, List.mem_cons]
    obtain ⟨h1, h2⟩ := ih (min q a)
    refine ⟨h1.trans (min_le_left _ _), ?_⟩
    rintro x (rfl | hx)
    · exact h1.trans (min_le_right _ _)
    · exact h2 x hx

theorem foldl_max_ge (q : ℚ) (qs : List ℚ) : q ≤ vmax q qs ∧ ∀ x ∈ qs, x ≤ vmax q qs := by
  unfold vmax
  induction qs generalizing q with
  | nil => simp
  | cons a as ih =>
    simp only [List.foldl_cons, List.mem_cons]
    obtain ⟨h1, h2⟩ := ih (max q a)
    refine ⟨(le_max_left _ _).trans h1, ?_⟩
    rintro x (rfl | hx)
    · exact (le_max_right _ _).trans h1
    · exact h2 x hx

/-- What is needed of the rows (or columns) read, for an axis of length `n` and the positions `qs`. -/
structure Axis (n : Nat) (ky : Key) (lo : Int) (m : Nat) (qs : List ℚ) : Prop where
  slice : ∃ s, ky = .slice s
  pos : ∃ rows, Spec.positions n ky = some rows ∧ rows.length = m ∧
    ∀ a : Nat, a < m → rows[a]? = some (lo + a)
  noinv : ¬ Inverted n ky
  big : 2 ≤ m
  inside : ∀ i ∈ qs, 0 ≤ i → i ≤ (n : ℚ) - 1 → 0 ≤ (bracket (i - lo)).1 ∧ (bracket (i - lo)).2 < m
  outside : ∀ i ∈ qs, (i < 0 ∨ (n : ℚ) - 1 < i) → ¬ (0 ≤ (bracket (i - lo)).1 ∧ (bracket (i - lo)).2 < m)

theorem axis_all {n : Nat} (hn : 2 ≤ n) (qs : List ℚ) : Axis n (.slice .all) 0 n qs where
  slice := ⟨_, rfl⟩
  pos := ⟨_, positions_all n, by simp, by intro a ha; simp [ha]⟩
  noinv := not_inverted_all n
  big := hn
  inside := by
    intro i _ h0 h1
    have := bracket_inside (lo := 0) (hi := n) h0 h1 (by omega) (le_refl _) (by omega) (by omega)
    simpa using this
  outside := by
    intro i _ h
    have := bracket_outside (n := n) (lo := 0) (hi := n) h (fun _ => rfl) (le_refl _)
    simpa using this

theorem axis_window {n : Nat} (hn : 2 ≤ n) (q : ℚ) (qs : List ℚ)
    (hpos : ∃ i ∈ q :: qs, 0 < i ∧ i ≤ (n : ℚ) - 1) :
    Axis n (sl (windowBounds n q qs).1 (windowBounds n q qs).2) (windowBounds n q qs).1
      ((windowBounds n q qs).2 - (windowBounds n q qs).1).toNat (q :: qs) := by
  have mn : ∀ i ∈ q :: qs, vmin q qs ≤ i := by
    intro i hi
    rcases List.mem_cons.1 hi with rfl | h
    · exact (foldl_min_le _ qs).1
    · exact (foldl_min_le q qs).2 i h
  have mx : ∀ i ∈ q :: qs, i ≤ vmax q qs := by
    intro i hi
    rcases List.mem_cons.1 hi with rfl | h
    · exact (foldl_max_ge _ qs).1
    · exact (foldl_max_ge q qs).2 i h
  obtain ⟨z, hz, z0, z1⟩ := hpos
  simp only [windowBounds]
  set lo : Int := max (⌊vmin q qs⌋ - 1) 0 with hlo
  set hi : Int := min ⌈vmax q qs + 1⌉ n with hhi
  have l0 : 0 ≤ lo := le_max_right _ _
  have wide : 2 ≤ hi - lo := by
    have a1 : ⌊vmin q qs⌋ ≤ ⌊z⌋ := Int.floor_le_floor (mn z hz)
    have a2 : ⌈z + 1⌉ ≤ ⌈vmax q qs + 1⌉ := Int.ceil_le_ceil (by linarith [mx z hz])
    have a3 : ⌊z⌋ + 1 ≤ ⌈z + 1⌉ := by
      have : ((⌊z⌋ + 1 : Int) : ℚ) ≤ ⌈z + 1⌉ := by
        push_cast; have := Int.le_ceil (z + 1); have := Int.floor_le z; linarith
      exact_mod_cast this
    have a4 : 2 ≤ ⌈z + 1⌉ := by
      have : (1 : Int) < ⌈z + 1⌉ := Int.lt_ceil.2 (by push_cast; linarith)
      omega
    have a5 : ⌊z⌋ ≤ (n : Int) - 1 := by
      have : ((⌊z⌋ : Int) : ℚ) ≤ (((n : Int) - 1 : Int) : ℚ) := by
        push_cast; have := Int.floor_le z; linarith
      exact_mod_cast this
    omega
  have hin : hi ≤ n := min_le_right _ _
  have mpos : ((hi - lo).toNat : Int) = hi - lo := by omega
  obtain ⟨p1, p2⟩ := slice_positions (n := n) l0 (show lo ≤ hi by omega)
  have e1 : min lo (n : Int) = lo := by omega
  have e2 : min hi (n : Int) = hi := by omega
  rw [e1, e2] at p1
  obtain ⟨r1, r2⟩ := range_unit (show lo ≤ hi by omega)
  refine ⟨⟨_, rfl⟩, ⟨_, p1, r1, r2⟩, p2, by omega, ?_, ?_⟩
  · intro i hi' h0 h1
    rw [mpos]
    refine bracket_inside h0 h1 ?_ l0 ?_ wide
    · have a1 : ⌊vmin q qs⌋ ≤ ⌊i⌋ := Int.floor_le_floor (mn i hi')
      omega
    · have a2 : ⌈i + 1⌉ ≤ ⌈vmax q qs + 1⌉ := Int.ceil_le_ceil (by linarith [mx i hi'])
      omega
  · intro i hi' h
    rw [mpos]
    refine bracket_outside h ?_ hin
    intro hneg
    have a1 : ⌊vmin q qs⌋ ≤ ⌊i⌋ := Int.floor_le_floor (mn i hi')
    have a2 : ⌊i⌋ < 0 := Int.floor_lt.2 (by push_cast; exact hneg)
    omega

/-! ### One band -/

/-- What the kernels compute: `φ` of the weighted sum of `ι` of the pixels where the neighbours exist and,
unless all points are inside, `na` elsewhere. -/
structure KernelSpec (kern : Arr α → ℚ → ℚ → Except Err β) (ι : α → ℚ) (φ : ℚ → β) (na : β) (guarded : Prop) :
    Prop where
  inside : ∀ Z i j, bracketsInside Z.ny Z.nx i j = true →
    kern Z i j = .ok (φ (weighted (fun r c => ι (Z.get r.toNat c.toNat)) i j))
  outside : guarded → ∀ Z i j, bracketsInside Z.ny Z.nx i j = false → kern Z i j = .ok na

theorem kernelDouble_spec (na : ℚ) : KernelSpec (kernelDouble na) id id na True :=
  ⟨fun Z i j h => by unfold kernelDouble; rw [if_pos h]; rfl,
   fun _ Z i j h => by unfold kernelDouble; rw [if_neg (by simp [h])]⟩

theorem kernelUint_spec (na : Int) : KernelSpec (kernelUint na) (fun z : Int => (z : ℚ)) trunc na True :=
  ⟨fun Z i j h => by unfold kernelUint; rw [if_pos h],
   fun _ Z i j h => by unfold kernelUint; rw [if_neg (by simp [h])]⟩

theorem kernelInt_spec : KernelSpec kernelInt (fun z : Int => (z : ℚ)) trunc 0 False := by
  refine ⟨fun Z i j h => ?_, fun h => h.elim⟩
  simp only [bracketsInside, decide_eq_true_eq] at h
  obtain ⟨h1, h2, h3, h4⟩ := h
  obtain ⟨b1, -, -⟩ := bracket_bounds i
  obtain ⟨c1, -, -⟩ := bracket_bounds j
  have w1 : wrapIndex Z.ny (bracket i).1 = .ok (bracket i).1.toNat := by unfold wrapIndex; rw [if_pos (by omega)]
  have w2 : wrapIndex Z.ny (bracket i).2 = .ok (bracket i).2.toNat := by unfold wrapIndex; rw [if_pos (by omega)]
  have w3 : wrapIndex Z.nx (bracket j).1 = .ok (bracket j).1.toNat := by unfold wrapIndex; rw [if_pos (by omega)]
  have w4 : wrapIndex Z.nx (bracket j).2 = .ok (bracket j).2.toNat := by unfold wrapIndex; rw [if_pos (by omega)]
  unfold kernelInt
  simp only [w1, w2, w3, w4]
  congr 2
  apply weighted_congr
  intro r c hr hc
  have er : (if r = (bracket i).1 then (bracket i).1.toNat else (bracket i).2.toNat) = r.toNat := by
    rcases hr with rfl | rfl <;> split_ifs <;> omega
  have ec : (if c = (bracket j).1 then (bracket j).1.toNat else (bracket j).2.toNat) = c.toNat := by
    rcases hc with rfl | rfl <;> split_ifs <;> omega
  rw [er, ec]

theorem sampleBand_spec {H W : Nat} {bands : List (CBand α)} {Ps : List (Int → Int → α)}
    (hB : Bands H W bands Ps) (hne : bands ≠ []) {kern : Arr α → ℚ → ℚ → Except Err β} {ι : α → ℚ} {φ : ℚ → β}
    {na : β} {gd : Prop} (hk : KernelSpec kern ι φ na gd) (garb : α) {ky kx : Key} {loi loj : Int} {m n : Nat}
    (ps : List (ℚ × ℚ)) (ai : Axis H ky loi m (ps.map Prod.fst)) (aj : Axis W kx loj n (ps.map Prod.snd))
    (hgd : gd ∨ ∀ p ∈ ps, InHull H W p.1 p.2) (k : Nat) (P : Int → Int → α) (hP : Ps[k]? = some P) :
    ∃ vs, sampleBand kern garb bands ky kx (ps.map fun r => (r.1 - (loi : ℚ), r.2 - (loj : ℚ))) k = .ok vs ∧
      vs.length = ps.length ∧ ∀ (t : Nat) p, ps[t]? = some p →
        vs[t]? = some (if InHull H W p.1 p.2 then φ (interp (fun r c => ι (P r c)) p.1 p.2) else na) := by
  obtain ⟨⟨s1, rfl⟩, ⟨rows, r1, r2, r3⟩, ni, bi, ini, outi⟩ := ai
  obtain ⟨⟨s2, rfl⟩, ⟨cols, c1, c2, c3⟩, nj, bj, inj, outj⟩ := aj
  have hkl : k < bands.length := by rw [hB.1]; exact (List.getElem?_eq_some_iff.1 hP).1
  obtain ⟨A, e, hs, hv⟩ := getitem_spec hB hne (kb := some (.int k)) (bl := [(k : Int)]) r1 c1
    (by simp [bandPositions, Spec.positions, hkl]) ni nj
  have hs' : A.shape = [m, n] := by rw [hs, r2, c2]; rfl
  have hget : ∀ r c : Nat, r < m → c < n → A.get [r, c] = some (P (loi + r) (loj + c)) := by
    intro r c hr hc
    exact hv r c 0 (loi + r) (loj + c) k P (r3 r hr) (c3 c hc) rfl (by simpa using hP)
  set Z : Arr α := ⟨m, n, fun r c => (A.get [r, c]).getD garb⟩ with hZ
  have hkern : ∀ p ∈ ps, kern Z (p.1 - loi) (p.2 - loj) =
      .ok (if InHull H W p.1 p.2 then φ (interp (fun r c => ι (P r c)) p.1 p.2) else na) := by
    intro p hp
    have m1 : p.1 ∈ ps.map Prod.fst := List.mem_map_of_mem hp
    have m2 : p.2 ∈ ps.map Prod.snd := List.mem_map_of_mem hp
    by_cases hh : InHull H W p.1 p.2
    · rw [if_pos hh]
      obtain ⟨h1, h2, h3, h4⟩ := hh
      obtain ⟨i1, i2⟩ := ini p.1 m1 h1 h2
      obtain ⟨j1, j2⟩ := inj p.2 m2 h3 h4
      rw [hk.inside Z _ _ (by simp only [bracketsInside, decide_eq_true_eq]; exact ⟨i1, i2, j1, j2⟩)]
      congr 2
      rw [← interp_shift (fun r c => ι (P r c)) loi loj p.1 p.2, ← weighted_eq]
      apply weighted_congr
      intro r c hr hc
      obtain ⟨b1, -, -⟩ := bracket_bounds (p.1 - loi)
      obtain ⟨b2, -, -⟩ := bracket_bounds (p.2 - loj)
      have hr' : 0 ≤ r ∧ r < m := by rcases hr with rfl | rfl <;> omega
      have hc' : 0 ≤ c ∧ c < n := by rcases hc with rfl | rfl <;> omega
      simp only [hZ]
      rw [hget _ _ (by omega) (by omega), Option.getD_some, Int.toNat_of_nonneg hr'.1, Int.toNat_of_nonneg hc'.1]
    · rw [if_neg hh]
      have hg : gd := by
        rcases hgd with h | h
        · exact h
        · exact absurd (h p hp) hh
      refine hk.outside hg Z _ _ ?_
      simp only [bracketsInside, decide_eq_false_iff_not]
      rintro ⟨i1, i2, j1, j2⟩
      apply hh
      refine ⟨?_, ?_, ?_, ?_⟩
      · by_contra hc; push Not at hc; exact outi p.1 m1 (Or.inl hc) ⟨i1, i2⟩
      · by_contra hc; push Not at hc; exact outi p.1 m1 (Or.inr hc) ⟨i1, i2⟩
      · by_contra hc; push Not at hc; exact outj p.2 m2 (Or.inl hc) ⟨j1, j2⟩
      · by_contra hc; push Not at hc; exact outj p.2 m2 (Or.inr hc) ⟨j1, j2⟩
  obtain ⟨vs, v1, v2, v3⟩ := mapM_ok (fun p : ℚ × ℚ => kern Z p.1 p.2)
    (ps.map fun r => (r.1 - (loi : ℚ), r.2 - (loj : ℚ))) (by
      intro x hx
      obtain ⟨p, hp, rfl⟩ := List.mem_map.1 hx
      exact ⟨_, hkern p hp⟩)
  refine ⟨vs, ?_, by simpa using v2, ?_⟩
  · unfold sampleBand
    simp only [e, hs']
    rw [if_neg (by omega)]
    exact v1
  · intro t p hp
    obtain ⟨y, h1, h2⟩ := v3 t (p.1 - (loi : ℚ), p.2 - (loj : ℚ)) (by rw [List.getElem?_map, hp]; rfl)
    rw [hkern p (List.mem_of_getElem? hp)] at h2
    cases h2
    exact h1


/-! ### Bilinear sampling -/

theorem positions_point {T : Xform} (hT : T.Regular) (i j : ℚ) :
    positions T (T.point i j).1 (T.point i j).2 = some (i, j) := by
  unfold Xform.point
  rw [positions_at hT]
  simp only [Option.some.injEq, Prod.mk.injEq]
  constructor <;> ring

theorem mapM_positions {T : Xform} (hT : T.Regular) (ps : List (ℚ × ℚ)) :
    (ps.map fun p => T.point p.1 p.2).mapM (fun p => positions T p.1 p.2) = some ps := by
  induction ps with
  | nil => rfl
  | cons p ps ih =>
    simp only [List.map_cons, List.mapM_cons, positions_point hT, ih]
    rfl

/-- Condition on the query positions under which the code can read its window: a single point, or some
point above the first row of centres and not beyond the last one, and the same for columns. -/
def Readable (H W : Nat) (ps : List (ℚ × ℚ)) : Prop :=
  ps.length = 1 ∨ ((∃ p ∈ ps, 0 < p.1 ∧ p.1 ≤ (H : ℚ) - 1) ∧ ∃ p ∈ ps, 0 < p.2 ∧ p.2 ≤ (W : ℚ) - 1)

theorem sample_spec {g : RGrid α} {H W : Nat} {Ps : List (Int → Int → α)} (hg : g.Holds H W Ps)
    (hT : g.t.Regular) (hH : 2 ≤ H) (hW : 2 ≤ W) {kern : Arr α → ℚ → ℚ → Except Err β} {ι : α → ℚ} {φ : ℚ → β}
    {na : β} {gd : Prop} (hk : KernelSpec kern ι φ na gd) (garb : α) (ps : List (ℚ × ℚ)) (hr : Readable H W ps)
    (hgd : gd ∨ ∀ p ∈ ps, InHull H W p.1 p.2) :
    ∃ out, g.sampleBilinear kern garb (ps.map fun p => g.t.point p.1 p.2) = some (.ok out) ∧
      out.length = Ps.length ∧ ∀ (k : Nat) P, Ps[k]? = some P → ∃ vs, out[k]? = some vs ∧
        vs.length = ps.length ∧ ∀ (t : Nat) p, ps[t]? = some p →
          vs[t]? = some (if InHull H W p.1 p.2 then φ (interp (fun r c => ι (P r c)) p.1 p.2) else na) := by
  have finish : ∀ (ky kx : Key) (qs : List (ℚ × ℚ)), (∀ (k : Nat) P, Ps[k]? = some P →
      ∃ vs, sampleBand kern garb g.bands ky kx qs k = .ok vs ∧
      vs.length = ps.length ∧ ∀ (t : Nat) p, ps[t]? = some p →
        vs[t]? = some (if InHull H W p.1 p.2 then φ (interp (fun r c => ι (P r c)) p.1 p.2) else na)) →
      ∃ out, (List.range g.bands.length).mapM (sampleBand kern garb g.bands ky kx qs) = .ok out ∧
      out.length = Ps.length ∧ ∀ (k : Nat) P, Ps[k]? = some P → ∃ vs, out[k]? = some vs ∧
        vs.length = ps.length ∧ ∀ (t : Nat) p, ps[t]? = some p →
          vs[t]? = some (if InHull H W p.1 p.2 then φ (interp (fun r c => ι (P r c)) p.1 p.2) else na) := by
    intro ky kx qs h
    obtain ⟨out, o1, o2, o3⟩ := mapM_ok (sampleBand kern garb g.bands ky kx qs) (List.range g.bands.length) (by
      intro k hk
      have hk' : k < Ps.length := by rw [← hg.1.1]; exact List.mem_range.1 hk
      obtain ⟨vs, h1, -⟩ := h k Ps[k] (List.getElem?_eq_getElem hk')
      exact ⟨vs, h1⟩)
    refine ⟨out, o1, by rw [o2, List.length_range, hg.1.1], ?_⟩
    intro k P hP
    have hkl : k < g.bands.length := by rw [hg.1.1]; exact (List.getElem?_eq_some_iff.1 hP).1
    obtain ⟨vs, h1, h2⟩ := h k P hP
    obtain ⟨vs', h3, h4⟩ := o3 k k (by simp [hkl])
    rw [h1] at h4
    cases h4
    exact ⟨vs, h3, h2⟩
  unfold RGrid.sampleBilinear
  rw [mapM_positions hT]
  simp only [Option.map_some, Option.some.injEq]
  match ps, hr with
  | [], hr =>
    rcases hr with h | ⟨⟨p, hp, -⟩, -⟩
    · simp at h
    · simp at hp
  | [p], _ =>
    unfold sampleAt
    refine finish _ _ _ ?_
    intro k P hP
    have := sampleBand_spec hg.1 hg.2 hk garb [p] (axis_all hH _) (axis_all hW _) hgd k P hP
    simpa using this
  | p :: q :: rest, hr =>
    obtain ⟨h1, h2⟩ : (∃ x ∈ p :: q :: rest, 0 < x.1 ∧ x.1 ≤ (H : ℚ) - 1) ∧
        ∃ x ∈ p :: q :: rest, 0 < x.2 ∧ x.2 ≤ (W : ℚ) - 1 := by
      rcases hr with h | h
      · simp at h
      · exact h
    unfold sampleAt
    simp only [hg.size]
    refine finish _ _ _ ?_
    intro k P hP
    refine sampleBand_spec hg.1 hg.2 hk garb (p :: q :: rest) (axis_window hH p.1 ((q :: rest).map Prod.fst) ?_)
      (axis_window hW p.2 ((q :: rest).map Prod.snd) ?_) hgd k P hP
    · obtain ⟨x, hx, hx1⟩ := h1
      exact ⟨x.1, by simpa using List.mem_map_of_mem (f := Prod.fst) hx, hx1⟩
    · obtain ⟨x, hx, hx1⟩ := h2
      exact ⟨x.2, by simpa using List.mem_map_of_mem (f := Prod.snd) hx, hx1⟩

/-- C16, floating-point bands.  For every grid of at least 2 × 2 cells and every readable list of points
given by their row and column positions, the result has one row per band and one column per point; it is
the bilinear interpolation of the band inside the hull of the cell centres and nodata outside. -/
theorem C16_bilinear_partial {g : RGrid ℚ} {H W : Nat} {Ps : List (Int → Int → ℚ)} (hg : g.Holds H W Ps)
    (hT : g.t.Regular) (hH : 2 ≤ H) (hW : 2 ≤ W) (garb : ℚ) (ps : List (ℚ × ℚ)) (hr : Readable H W ps) :
    ∃ out, g.sampleBilinear (kernelDouble g.nodata) garb (ps.map fun p => g.t.point p.1 p.2) = some (.ok out) ∧
      out.length = Ps.length ∧ ∀ (k : Nat) P, Ps[k]? = some P → ∃ vs, out[k]? = some vs ∧
        vs.length = ps.length ∧ ∀ (t : Nat) p, ps[t]? = some p →
          vs[t]? = some (if InHull H W p.1 p.2 then interp P p.1 p.2 else g.nodata) :=
  sample_spec hg hT hH hW (kernelDouble_spec g.nodata) garb ps hr (Or.inl trivial)

/-- C16, unsigned integer bands: the interpolated value is truncated. -/
theorem C16_bilinear_unsigned_partial {g : RGrid Int} {H W : Nat} {Ps : List (Int → Int → Int)} (hg : g.Holds H W Ps)
    (hT : g.t.Regular) (hH : 2 ≤ H) (hW : 2 ≤ W) (garb : Int) (ps : List (ℚ × ℚ)) (hr : Readable H W ps) :
    ∃ out, g.sampleBilinear (kernelUint g.nodata) garb (ps.map fun p => g.t.point p.1 p.2) = some (.ok out) ∧
      out.length = Ps.length ∧ ∀ (k : Nat) P, Ps[k]? = some P → ∃ vs, out[k]? = some vs ∧
        vs.length = ps.length ∧ ∀ (t : Nat) p, ps[t]? = some p →
          vs[t]? = some (if InHull H W p.1 p.2 then trunc (interp (fun r c => (P r c : ℚ)) p.1 p.2)
            else g.nodata) :=
  sample_spec hg hT hH hW (kernelUint_spec g.nodata) garb ps hr (Or.inl trivial)

/-- C16, signed integer bands: the interpolated value is truncated; only for points in the hull. -/
theorem C16_bilinear_signed_partial {g : RGrid Int} {H W : Nat} {Ps : List (Int → Int → Int)} (hg : g.Holds H W Ps)
    (hT : g.t.Regular) (hH : 2 ≤ H) (hW : 2 ≤ W) (garb : Int) (ps : List (ℚ × ℚ)) (hr : Readable H W ps)
    (hin : ∀ p ∈ ps, InHull H W p.1 p.2) :
    ∃ out, g.sampleBilinear kernelInt garb (ps.map fun p => g.t.point p.1 p.2) = some (.ok out) ∧
      out.length = Ps.length ∧ ∀ (k : Nat) P, Ps[k]? = some P → ∃ vs, out[k]? = some vs ∧
        vs.length = ps.length ∧ ∀ (t : Nat) p, ps[t]? = some p →
          vs[t]? = some (trunc (interp (fun r c => (P r c : ℚ)) p.1 p.2)) := by
  obtain ⟨out, h1, h2, h3⟩ := sample_spec hg hT hH hW kernelInt_spec garb ps hr (Or.inr hin)
  refine ⟨out, h1, h2, fun k P hP => ?_⟩
  obtain ⟨vs, v1, v2, v3⟩ := h3 k P hP
  refine ⟨vs, v1, v2, fun t p hp => ?_⟩
  rw [v3 t p hp, if_pos (hin p (List.mem_of_getElem? hp))]

theorem lerp_between {f : Int → ℚ} {i lo hi : ℚ}
    (h : ∀ a : Int, |(a : ℚ) - i| < 1 → lo ≤ f a ∧ f a ≤ hi) :
    lo ≤ (1 - (i - ⌊i⌋)) * f ⌊i⌋ + (i - ⌊i⌋) * f (⌊i⌋ + 1) ∧
      (1 - (i - ⌊i⌋)) * f ⌊i⌋ + (i - ⌊i⌋) * f (⌊i⌋ + 1) ≤ hi := by
  have h0 := Int.floor_le i
  have h1 := Int.lt_floor_add_one i
  have b0 := h ⌊i⌋ (by rw [abs_lt]; constructor <;> linarith)
  rcases eq_or_lt_of_le h0 with e | l
  · rw [show i - (⌊i⌋ : ℚ) = 0 by linarith]
    constructor <;> linarith [b0.1, b0.2]
  · have b1 := h (⌊i⌋ + 1) (by rw [abs_lt]; push_cast; constructor <;> linarith)
    set s := i - (⌊i⌋ : ℚ) with hs
    have s0 : 0 ≤ s := by linarith
    have s1 : 0 ≤ 1 - s := by linarith
    constructor
    · nlinarith [mul_le_mul_of_nonneg_left b0.1 s1, mul_le_mul_of_nonneg_left b1.1 s0]
    · nlinarith [mul_le_mul_of_nonneg_left b0.2 s1, mul_le_mul_of_nonneg_left b1.2 s0]

/-- C16: the interpolated value at a cell centre is the value of the cell. -/
theorem C16_centre_value (P : Int → Int → ℚ) (i j : Int) : interp P i j = P i j := by
  simp [interp]

/-- C16: the interpolated value lies between any bounds on the cells whose centre is less than one cell
away in each direction, that is the surrounding four (or two, or one) cells. -/
theorem C16_between {P : Int → Int → ℚ} {i j lo hi : ℚ}
    (h : ∀ a b : Int, |(a : ℚ) - i| < 1 → |(b : ℚ) - j| < 1 → lo ≤ P a b ∧ P a b ≤ hi) :
    lo ≤ interp P i j ∧ interp P i j ≤ hi := by
  unfold interp
  apply lerp_between (f := fun a => (1 - (j - ⌊j⌋)) * P a ⌊j⌋ + (j - ⌊j⌋) * P a (⌊j⌋ + 1))
  intro a ha
  exact lerp_between (f := P a) fun b hb => h a b ha hb

/-- C16: an affine surface in the coordinates of the plane is reproduced exactly. -/
theorem C16_affine_surface (T : Xform) (P : Int → Int → ℚ) (A B C : ℚ)
    (h : ∀ a b, P a b = A * (centerCoord T a b).1 + B * (centerCoord T a b).2 + C) (i j : ℚ) :
    interp P i j = A * (T.point i j).1 + B * (T.point i j).2 + C := by
  unfold interp
  simp only [h, centerCoord, Xform.point, Xform.at]
  push_cast
  ring

/-- C16 is violated by query lists whose points all lie on the first row of cell centres: whatever the
grid, sampling raises. -/
theorem C16_violated_first_row {g : RGrid α} {H W : Nat} {Ps : List (Int → Int → α)} (hg : g.Holds H W Ps)
    (hT : g.t.Regular) (hH : 0 < H) (kern : Arr α → ℚ → ℚ → Except Err β) (garb : α) (js : List ℚ)
    (hj : ∀ j ∈ js, 0 ≤ j ∧ j ≤ (W : ℚ) - 1) (hl : 2 ≤ js.length) :
    g.sampleBilinear kern garb (js.map fun j => g.t.point 0 j) = some (.error .valueError) := by
  have hm : (js.map fun j => g.t.point 0 j) = (js.map fun j => ((0 : ℚ), j)).map fun p => g.t.point p.1 p.2 := by
    rw [List.map_map]; rfl
  unfold RGrid.sampleBilinear
  rw [hm, mapM_positions hT]
  match js, hl, hj with
  | a :: b :: rest, _, hj =>
    have v0 : ∀ l : List ℚ, vmin 0 ((l.map fun j => ((0 : ℚ), j)).map Prod.fst) = 0 ∧
        vmax 0 ((l.map fun j => ((0 : ℚ), j)).map Prod.fst) = 0 := by
      intro l
      induction l with
      | nil => exact ⟨rfl, rfl⟩
      | cons x xs ih => simpa [vmin, vmax] using ih
    obtain ⟨e1, e2⟩ := v0 (b :: rest)
    have w1 : windowBounds H 0 ((((b :: rest).map fun j => ((0 : ℚ), j))).map Prod.fst) = (0, 1) := by
      unfold windowBounds
      rw [e1, e2]
      norm_num
      exact hH
    have hb : ∃ b', g.bands[0]? = some b' := by
      cases h : g.bands with
      | nil => exact absurd h hg.2
      | cons x xs => exact ⟨x, rfl⟩
    have h0 : 0 < g.bands.length := List.length_pos_iff.2 hg.2
    obtain ⟨p1, p2⟩ := slice_positions (n := H) (a := 0) (b := 1) (le_refl _) (by norm_num)
    have mem : ∀ x ∈ a :: (b :: rest), vmin a (((b :: rest).map fun j => ((0 : ℚ), j)).map Prod.snd) ≤ x ∧
        x ≤ vmax a (((b :: rest).map fun j => ((0 : ℚ), j)).map Prod.snd) := by
      have e : ((b :: rest).map fun j => ((0 : ℚ), j)).map Prod.snd = b :: rest := by simp
      rw [e]
      intro x hx
      rcases List.mem_cons.1 hx with rfl | h
      · exact ⟨(foldl_min_le _ _).1, (foldl_max_ge _ _).1⟩
      · exact ⟨(foldl_min_le _ _).2 x h, (foldl_max_ge _ _).2 x h⟩
    set wj := windowBounds W a (((b :: rest).map fun j => ((0 : ℚ), j)).map Prod.snd) with hwj
    have j0 : 0 ≤ wj.1 := le_max_right _ _
    have j1 : wj.1 ≤ wj.2 := by
      obtain ⟨q1, q2⟩ := mem a (by simp)
      obtain ⟨q3, q4⟩ := hj a List.mem_cons_self
      rw [hwj]
      simp only [windowBounds]
      set mn := vmin a (((b :: rest).map fun j => ((0 : ℚ), j)).map Prod.snd)
      set mx := vmax a (((b :: rest).map fun j => ((0 : ℚ), j)).map Prod.snd)
      have a1 : ⌊mn⌋ ≤ ⌊a⌋ := Int.floor_le_floor q1
      have a2 : ⌊a⌋ ≤ ⌈mx + 1⌉ := by
        have : ((⌊a⌋ : Int) : ℚ) ≤ ⌈mx + 1⌉ := by
          have := Int.le_ceil (mx + 1); have := Int.floor_le a; linarith
        exact_mod_cast this
      have a3 : ⌊a⌋ ≤ (W : Int) - 1 := by
        have : ((⌊a⌋ : Int) : ℚ) ≤ (((W : Int) - 1 : Int) : ℚ) := by
          push_cast; have := Int.floor_le a; linarith
        exact_mod_cast this
      have a4 : 0 ≤ ⌊a⌋ := Int.floor_nonneg.2 q3
      omega
    obtain ⟨p3, p4⟩ := slice_positions (n := W) j0 j1
    obtain ⟨A, eA, sA, -⟩ := getitem_spec hg.1 hg.2 (kb := some (.int ((0 : Nat) : Int))) (bl := [((0 : Nat) : Int)]) p1 p3
      (by simp [bandPositions, Spec.positions, h0]) p2 p4
    have sA' : A.shape = [1, (Py.range (min wj.1 (W : Int)) (min wj.2 (W : Int)) 1).length] := by
      rw [sA]
      have : (Py.range (min 0 (H : Int)) (min 1 (H : Int)) 1).length = 1 := by
        rw [(range_unit (by omega)).1]; omega
      rw [this]
      rfl
    simp only [List.map_cons, Option.map_some, Option.some.injEq]
    unfold sampleAt
    simp only [hg.size]
    simp only [List.map_cons] at w1 hwj
    simp only [List.map_cons, w1, ← hwj]
    obtain ⟨nb, hnb⟩ : ∃ nb, g.bands.length = nb + 1 := ⟨g.bands.length - 1, by omega⟩
    rw [hnb, List.range_succ_eq_map, List.mapM_cons]
    have : ∀ qs, sampleBand kern garb g.bands (sl 0 1) (sl wj.1 wj.2) qs 0 = .error .valueError := by
      intro qs
      unfold sampleBand
      rw [eA]
      simp only [sA']
      rw [if_pos (Or.inl trivial)]
    rw [this]
    rfl

/-- A 2 × 2 grid of signed integers sampled half a cell below its first row of centres: instead of
nodata the mean of the first and the last row is returned. -/
theorem C16_violated_signed_outside :
    (exGrid.map fun g => g.sampleBilinear kernelInt 0 [g.t.point (-1 / 2) 0]).toOption.map
      (fun o => o.map fun e => e.toOption) = some (some (some [[5]])) ∧
    ¬ InHull 2 2 (-1 / 2) 0 ∧ exGrid.toOption.map (fun g => g.nodata) = some (-9) := by
  decide +kernel

/-- The readable lists include a mixture of points inside and outside. -/
example : Readable 3 4 [(1 / 2, 5 / 2), (-3, 1), (0, 0)] :=
  Or.inr ⟨⟨(1 / 2, 5 / 2), by simp, by norm_num, by norm_num⟩, ⟨(1 / 2, 5 / 2), by simp, by norm_num, by norm_num⟩⟩

/-- Sampling the middle of the 2 × 2 example, a cell centre and a point outside. -/
example : (exGrid.map fun g => g.sampleBilinear (kernelUint g.nodata) 0
      [g.t.point (1 / 2) (1 / 2), g.t.point 1 0, g.t.point 2 2]).toOption.map
      (fun o => o.map fun e => e.toOption) = some (some (some [[5, 10, -9]])) := by
  decide +kernel


/-! ### Nearest-neighbour sampling -/

/-- The pixel value of a cell that may lie outside the grid. -/
def cellValue (H W : Nat) (nodata : α) (P : Int → Int → α) (i j : Int) : α :=
  if 0 ≤ i ∧ i < H ∧ 0 ≤ j ∧ j < W then P i j else nodata

theorem indicesRaw_cell {T : Xform} (hT : T.Regular) (p : ℚ × ℚ) :
    ∃ i j, indicesRaw T p.1 p.2 = some (i, j) ∧ T.InClosedCell i j p := by
  obtain ⟨a, b, h1, h2⟩ := C09_position_round_trip T hT p.1 p.2
  refine ⟨rint a, rint b, by simp [indicesRaw, h1], a + 1 / 2, b + 1 / 2, ?_, ?_, ?_, ?_, (positions_some h1).2⟩ <;>
    linarith [(abs_le.1 (rint_near a)).1, (abs_le.1 (rint_near a)).2, (abs_le.1 (rint_near b)).1,
      (abs_le.1 (rint_near b)).2]

/-- A point in the interior of a cell lies in no other closed cell. -/
theorem closed_cell_unique {T : Xform} (hT : T.Regular) {p : ℚ × ℚ} {i j i' j' : Int} (h : T.InCell i j p)
    (h' : T.InClosedCell i' j' p) : i' = i ∧ j' = j := by
  obtain ⟨u, v, a1, a2, a3, a4, rfl⟩ := h
  obtain ⟨u', v', b1, b2, b3, b4, e⟩ := h'
  have q1 := positions_at hT u v
  have q2 := positions_at hT u' v'
  rw [← e, q1] at q2
  simp only [Option.some.injEq, Prod.mk.injEq] at q2
  have eu : u' = u := by linarith [q2.1]
  have ev : v' = v := by linarith [q2.2]
  subst eu ev
  have r1 : (i' : ℚ) < i + 1 := by linarith
  have r2 : (i : ℚ) < i' + 1 := by linarith
  have r3 : (j' : ℚ) < j + 1 := by linarith
  have r4 : (j : ℚ) < j' + 1 := by linarith
  have r1' : i' < i + 1 := by exact_mod_cast r1
  have r2' : i < i' + 1 := by exact_mod_cast r2
  have r3' : j' < j + 1 := by exact_mod_cast r3
  have r4' : j < j' + 1 := by exact_mod_cast r4
  omega

/-- C17, a single point: for every grid, number of bands and point there is a cell containing the point
(the only one, unless the point lies on a border) such that the call returns its value in each band when
it belongs to the grid, and nodata when it does not. -/
theorem C17_scalar {g : RGrid α} {H W : Nat} {Ps : List (Int → Int → α)} (hg : g.Holds H W Ps)
    (hT : g.t.Regular) (garb : α) (p : ℚ × ℚ) :
    ∃ i j : Int, g.t.InClosedCell i j p ∧ (∀ i' j', g.t.InCell i' j' p → i' = i ∧ j' = j) ∧
      ((0 ≤ i ∧ i < H ∧ 0 ≤ j ∧ j < W ∧ g.sampleNearest1 garb p.1 p.2 = some (.ok (.values (Ps.map fun P => P i j)))) ∨
       (¬ (0 ≤ i ∧ i < H ∧ 0 ≤ j ∧ j < W) ∧ g.sampleNearest1 garb p.1 p.2 = some (.ok (.nodata g.nodata)))) := by
  obtain ⟨i, j, e, hc⟩ := indicesRaw_cell hT p
  refine ⟨i, j, hc, fun i' j' h => ?_, ?_⟩
  · obtain ⟨h1, h2⟩ := closed_cell_unique hT h hc
    exact ⟨h1.symm, h2.symm⟩
  · unfold RGrid.sampleNearest1
    rw [e]
    simp only [Option.map_some, hg.size]
    by_cases hin : 0 ≤ i ∧ i < H ∧ 0 ≤ j ∧ j < W
    · left
      refine ⟨hin.1, hin.2.1, hin.2.2.1, hin.2.2.2, ?_⟩
      rw [if_pos hin]
      obtain ⟨A, eA, -, vA⟩ := getitem_spec hg.1 hg.2 (ky := .int i) (kx := .int j) (kb := none)
        (rows := [i]) (cols := [j]) (bl := (List.range g.bands.length).map fun (k : Nat) => (k : Int))
        (by simp [Spec.positions, hin.1, hin.2.1]) (by simp [Spec.positions, hin.2.2.1, hin.2.2.2])
        rfl (by simp [Inverted]) (by simp [Inverted])
      rw [eA]
      simp only [Option.some.injEq, Except.ok.injEq, Nearest.values.injEq]
      apply List.ext_getElem?
      intro k
      by_cases hk : k < Ps.length
      · have := vA 0 0 k i j k Ps[k] rfl rfl (by simp [hg.1.1, hk]) (by simp [hk])
        change A.get [k] = _ at this
        simp [hg.1.1, hk, this]
      · have h1 : ¬ k < g.bands.length := by rw [hg.1.1]; exact hk
        rw [List.getElem?_eq_none (by simp; omega), List.getElem?_eq_none (by simp; omega)]
    · right
      exact ⟨hin, by rw [if_neg hin]⟩

theorem flatMap_get {γ δ : Type _} (f : γ → List δ) (nb : Nat) (hf : ∀ x, (f x).length = nb) :
    ∀ (l : List γ) (t k : Nat), k < nb → (l.flatMap f)[t * nb + k]? = (l[t]?).bind fun x => (f x)[k]? := by
  intro l
  induction l with
  | nil => intro t k _; simp
  | cons x xs ih =>
    intro t k hk
    rw [List.flatMap_cons]
    cases t with
    | zero => simp [List.getElem?_append_left, hf, hk]
    | succ t =>
      rw [List.getElem?_append_right (by rw [hf]; nlinarith), hf,
        show (t + 1) * nb + k - nb = t * nb + k by
          rw [Nat.add_mul, Nat.one_mul]; omega, ih t k hk]
      simp

theorem ifoldl_min_le (q : Int) (qs : List Int) : qs.foldl min q ≤ q ∧ ∀ x ∈ qs, qs.foldl min q ≤ x := by
  induction qs generalizing q with
  | nil => simp
  | cons a as ih =>
    simp only [List.foldl_cons, List.mem_cons]
    obtain ⟨h1, h2⟩ := ih (min q a)
    refine ⟨h1.trans (min_le_left _ _), ?_⟩
    rintro x (rfl | hx)
    · exact h1.trans (min_le_right _ _)
    · exact h2 x hx

theorem ifoldl_max_ge (q : Int) (qs : List Int) : q ≤ qs.foldl max q ∧ ∀ x ∈ qs, x ≤ qs.foldl max q := by
  induction qs generalizing q with
  | nil => simp
  | cons a as ih =>
    simp only [List.foldl_cons, List.mem_cons]
    obtain ⟨h1, h2⟩ := ih (max q a)
    refine ⟨(le_max_left _ _).trans h1, ?_⟩
    rintro x (rfl | hx)
    · exact (le_max_right _ _).trans h1
    · exact h2 x hx

/-- What the vector form computes, with the reshape as it is: entry `(k, t)` of the result is the value of
point `(k n + t) / nb` in band `(k n + t) % nb`. -/
theorem nearestAt_spec {g : RGrid α} {H W : Nat} {Ps : List (Int → Int → α)} (hg : g.Holds H W Ps)
    (garb : α) (ix : List (Int × Int)) (hin : ∃ q ∈ ix, 0 ≤ q.1 ∧ q.1 < H ∧ 0 ≤ q.2 ∧ q.2 < W) :
    ∃ out, nearestAt garb g ix = .ok out ∧ out.length = Ps.length ∧
      ∀ k t s b : Nat, k < Ps.length → t < ix.length → k * ix.length + t = s * Ps.length + b → b < Ps.length →
        ∀ q P, ix[s]? = some q → Ps[b]? = some P →
          ∃ vs, out[k]? = some vs ∧ vs.length = ix.length ∧ vs[t]? = some (cellValue H W g.nodata P q.1 q.2) := by
  set inside := fun p : Int × Int => decide (0 ≤ p.1 ∧ p.1 < H ∧ 0 ≤ p.2 ∧ p.2 < W) with hins
  obtain ⟨q0, hq0, hq1⟩ := hin
  have hf : ix.filter inside ≠ [] := by
    intro h
    have : q0 ∈ ix.filter inside := List.mem_filter.2 ⟨hq0, by simp [hins, hq1]⟩
    rw [h] at this
    simp at this
  unfold nearestAt
  simp only [hg.size]
  change ∃ out, (match ix.filter inside with
    | [] => _
    | p :: ps => _) = Except.ok out ∧ _
  cases hfl : ix.filter inside with
  | nil => exact absurd hfl hf
  | cons p ps =>
    simp only
    have hmem : ∀ q ∈ p :: ps, inside q = true := by
      intro q hq; rw [← hfl] at hq; exact (List.mem_filter.1 hq).2
    have hp : 0 ≤ p.1 ∧ p.1 < H ∧ 0 ≤ p.2 ∧ p.2 < W := by
      have := hmem p (by simp); simpa [hins] using this
    set imn := max ((ps.map Prod.fst).foldl min p.1 - 1) 0 with himn
    set imx := min ((ps.map Prod.fst).foldl max p.1 + 1) (H : Int) with himx
    set jmn := max ((ps.map Prod.snd).foldl min p.2 - 1) 0 with hjmn
    set jmx := min ((ps.map Prod.snd).foldl max p.2 + 1) (W : Int) with hjmx
    have bi : ∀ q ∈ p :: ps, imn ≤ q.1 ∧ q.1 < imx ∧ jmn ≤ q.2 ∧ q.2 < jmx := by
      intro q hq
      have hq' : 0 ≤ q.1 ∧ q.1 < H ∧ 0 ≤ q.2 ∧ q.2 < W := by
        have := hmem q hq; simpa [hins] using this
      obtain ⟨a1, a2⟩ := ifoldl_min_le p.1 (ps.map Prod.fst)
      obtain ⟨a3, a4⟩ := ifoldl_max_ge p.1 (ps.map Prod.fst)
      obtain ⟨a5, a6⟩ := ifoldl_min_le p.2 (ps.map Prod.snd)
      obtain ⟨a7, a8⟩ := ifoldl_max_ge p.2 (ps.map Prod.snd)
      rcases List.mem_cons.1 hq with rfl | h
      · omega
      · have := a2 q.1 (List.mem_map_of_mem h)
        have := a4 q.1 (List.mem_map_of_mem h)
        have := a6 q.2 (List.mem_map_of_mem h)
        have := a8 q.2 (List.mem_map_of_mem h)
        omega
    have bp := bi p (by simp)
    have i0 : 0 ≤ imn := le_max_right _ _
    have j0 : 0 ≤ jmn := le_max_right _ _
    have iH : imx ≤ H := min_le_right _ _
    have jW : jmx ≤ W := min_le_right _ _
    obtain ⟨p1, p2⟩ := slice_positions (n := H) i0 (show imn ≤ imx by omega)
    obtain ⟨p3, p4⟩ := slice_positions (n := W) j0 (show jmn ≤ jmx by omega)
    obtain ⟨A, eA, sA, vA⟩ := getitem_spec hg.1 hg.2 (kb := some (.slice .all)) p1 p3
      (positions_all g.bands.length) p2 p4
    rw [eA]
    have gA : ∀ (q : Int × Int) (k : Nat) P, q ∈ p :: ps → Ps[k]? = some P →
        A.get [(q.1 - imn).toNat, (q.2 - jmn).toNat, k] = some (P q.1 q.2) := by
      intro q k P hq hP
      obtain ⟨c1, c2, c3, c4⟩ := bi q hq
      have hk : k < g.bands.length := by rw [hg.1.1]; exact (List.getElem?_eq_some_iff.1 hP).1
      have e1 : min imn (H : Int) = imn := by omega
      have e2 : min imx (H : Int) = imx := by omega
      have e3 : min jmn (W : Int) = jmn := by omega
      have e4 : min jmx (W : Int) = jmx := by omega
      rw [e1, e2, e3, e4] at vA
      have := vA (q.1 - imn).toNat (q.2 - jmn).toNat k q.1 q.2 k P
        (by rw [(range_unit (by omega)).2 _ (by omega)]; congr 1; omega)
        (by rw [(range_unit (by omega)).2 _ (by omega)]; congr 1; omega)
        (by simp [hk]) (by simpa using hP)
      exact this
    set row : Int × Int → List α := fun q => (List.range g.bands.length).map fun k =>
        if inside q then (A.get [(q.1 - imn).toNat, (q.2 - jmn).toNat, k]).getD garb else g.nodata with hrow
    refine ⟨_, rfl, by simp [hg.1.1], ?_⟩
    intro k t s b hk ht hidx hb q P hq hP
    have hbl : b < g.bands.length := by rw [hg.1.1]; exact hb
    have hkl : k < g.bands.length := by rw [hg.1.1]; exact hk
    refine ⟨_, by rw [List.getElem?_map, List.getElem?_range hkl]; rfl, by simp, ?_⟩
    rw [List.getElem?_map, List.getElem?_range ht]
    simp only [Option.map_some, Option.some.injEq]
    change ((ix.flatMap row)[k * ix.length + t]?).getD garb = _
    rw [hidx, flatMap_get row Ps.length (by intro x; simp [hrow, hg.1.1]) ix s b hb, hq]
    simp only [Option.bind_some]
    rw [hrow]
    simp only [List.getElem?_map, List.getElem?_range hbl, Option.map_some, Option.getD_some]
    unfold cellValue
    by_cases hc : 0 ≤ q.1 ∧ q.1 < H ∧ 0 ≤ q.2 ∧ q.2 < W
    · have hci : inside q = true := by simp [hins, hc]
      rw [if_pos hc, if_pos hci, gA q b P ?_ hP, Option.getD_some]
      rw [← hfl]
      exact List.mem_filter.2 ⟨List.mem_of_getElem? hq, hci⟩
    · have hci : ¬ inside q = true := by simp only [hins, decide_eq_true_eq]; exact hc
      rw [if_neg hc, if_neg hci]

theorem mapM_indices {T : Xform} (hT : T.Regular) (pts : List (ℚ × ℚ)) :
    ∃ ix : List (Int × Int), pts.mapM (fun p => indicesRaw T p.1 p.2) = some ix ∧ ix.length = pts.length ∧
      ∀ (t : Nat) p, pts[t]? = some p → ∃ q, ix[t]? = some q ∧ T.InClosedCell q.1 q.2 p := by
  induction pts with
  | nil => exact ⟨[], rfl, rfl, by simp⟩
  | cons p ps ih =>
    obtain ⟨ix, h1, h2, h3⟩ := ih
    obtain ⟨i, j, e, hc⟩ := indicesRaw_cell hT p
    refine ⟨(i, j) :: ix, by simp only [List.mapM_cons, e, h1]; rfl, by simp [h2], ?_⟩
    intro t q hq
    cases t with
    | zero => simp at hq; subst hq; exact ⟨(i, j), rfl, hc⟩
    | succ t => simpa using h3 t q (by simpa using hq)

/-- The query list has a point in the interior of a cell of the grid. -/
def SomeInside (T : Xform) (H W : Nat) (pts : List (ℚ × ℚ)) : Prop :=
  ∃ p ∈ pts, ∃ i j : Nat, i < H ∧ j < W ∧ T.InCell i j p

theorem nearest_general {g : RGrid α} {H W : Nat} {Ps : List (Int → Int → α)} (hg : g.Holds H W Ps)
    (hT : g.t.Regular) (garb : α) (pts : List (ℚ × ℚ)) (hin : SomeInside g.t H W pts) :
    ∃ (out : List (List α)) (ix : List (Int × Int)), g.sampleNearest garb pts = some (.ok out) ∧ out.length = Ps.length ∧
      ix.length = pts.length ∧
      (∀ (t : Nat) p q, pts[t]? = some p → ix[t]? = some q → g.t.InClosedCell q.1 q.2 p) ∧
      ∀ k t s b : Nat, k < Ps.length → t < pts.length → k * pts.length + t = s * Ps.length + b → b < Ps.length →
        ∀ q P, ix[s]? = some q → Ps[b]? = some P →
          ∃ vs, out[k]? = some vs ∧ vs.length = pts.length ∧ vs[t]? = some (cellValue H W g.nodata P q.1 q.2) := by
  obtain ⟨ix, h1, h2, h3⟩ := mapM_indices hT pts
  obtain ⟨p, hp, i, j, hi, hj, hcell⟩ := hin
  obtain ⟨t, ht⟩ := List.mem_iff_getElem?.1 hp
  obtain ⟨q, hq, hqc⟩ := h3 t p ht
  obtain ⟨e1, e2⟩ := closed_cell_unique hT hcell hqc
  obtain ⟨out, o1, o2, o3⟩ := nearestAt_spec hg garb ix ⟨q, List.mem_of_getElem? hq, by omega⟩
  rw [h2] at o3
  refine ⟨out, ix, by unfold RGrid.sampleNearest; rw [h1]; simp [o1], o2, h2, ?_, o3⟩
  intro t p q hp hq
  obtain ⟨q', hq', hc⟩ := h3 t p hp
  rw [hq] at hq'
  cases hq'
  exact hc

/-- C17, lists of points, for a single band or a single point: every entry of the result is the value of a
cell containing the point, or nodata when that cell is not in the grid.  By `closed_cell_unique` the cell
is the only one unless the point lies on a border. -/
theorem C17_vector_partial {g : RGrid α} {H W : Nat} {Ps : List (Int → Int → α)} (hg : g.Holds H W Ps)
    (hT : g.t.Regular) (garb : α) (pts : List (ℚ × ℚ)) (hin : SomeInside g.t H W pts)
    (h1 : Ps.length = 1 ∨ pts.length = 1) :
    ∃ out, g.sampleNearest garb pts = some (.ok out) ∧ out.length = Ps.length ∧
      ∀ (k t : Nat) P p, Ps[k]? = some P → pts[t]? = some p → ∃ vs, out[k]? = some vs ∧ vs.length = pts.length ∧
        ∃ i j, g.t.InClosedCell i j p ∧ vs[t]? = some (cellValue H W g.nodata P i j) := by
  obtain ⟨out, ix, o1, o2, o3, o4, o5⟩ := nearest_general hg hT garb pts hin
  refine ⟨out, o1, o2, ?_⟩
  intro k t P p hP hp
  have hk := (List.getElem?_eq_some_iff.1 hP).1
  have ht := (List.getElem?_eq_some_iff.1 hp).1
  have hidx : k * pts.length + t = t * Ps.length + k := by
    rcases h1 with h | h
    · have : k = 0 := by omega
      rw [h, this]; omega
    · have : t = 0 := by omega
      rw [h, this]; omega
  obtain ⟨q, hq⟩ : ∃ q, ix[t]? = some q := ⟨ix[t]'(by omega), List.getElem?_eq_getElem (by omega)⟩
  obtain ⟨vs, v1, v2, v3⟩ := o5 k t t k hk ht hidx hk q P hq hP
  exact ⟨vs, v1, v2, q.1, q.2, o4 t p q hp hq, v3⟩

/-- C17 is violated by every grid with several bands and every list of several points: the entry for the
first band and the second point is the value of the second band at the first point. -/
theorem C17_violated_multiband {g : RGrid α} {H W : Nat} {P0 P1 : Int → Int → α} {Ps : List (Int → Int → α)}
    (hg : g.Holds H W (P0 :: P1 :: Ps)) (hT : g.t.Regular) (garb : α) (p0 p1 : ℚ × ℚ) (pts : List (ℚ × ℚ))
    (hin : SomeInside g.t H W (p0 :: p1 :: pts)) :
    ∃ out vs i j, g.sampleNearest garb (p0 :: p1 :: pts) = some (.ok out) ∧ out[0]? = some vs ∧
      g.t.InClosedCell i j p0 ∧ vs[1]? = some (cellValue H W g.nodata P1 i j) := by
  obtain ⟨out, ix, o1, o2, o3, o4, o5⟩ := nearest_general hg hT garb _ hin
  obtain ⟨q, hq⟩ : ∃ q, ix[0]? = some q := ⟨ix[0]'(by rw [o3]; simp), List.getElem?_eq_getElem _⟩
  obtain ⟨vs, v1, v2, v3⟩ := o5 0 1 0 1 (by simp) (by simp) (by simp) (by simp) q P1 hq rfl
  exact ⟨out, vs, q.1, q.2, o1, v1, o4 0 p0 q rfl hq, v3⟩

/-- C17 is violated by lists of points that all lie off the grid: instead of nodata the call raises. -/
theorem C17_violated_all_outside {g : RGrid α} {H W : Nat} {Ps : List (Int → Int → α)} (hg : g.Holds H W Ps)
    (hT : g.t.Regular) (garb : α) (pts : List (ℚ × ℚ)) (hout : ∀ p ∈ pts, ¬ g.t.InGrid H W p) :
    g.sampleNearest garb pts = some (.error .valueError) := by
  obtain ⟨ix, h1, h2, h3⟩ := mapM_indices hT pts
  unfold RGrid.sampleNearest
  rw [h1]
  simp only [Option.map_some, Option.some.injEq]
  have hf : ix.filter (fun p : Int × Int => decide (0 ≤ p.1 ∧ p.1 < H ∧ 0 ≤ p.2 ∧ p.2 < W)) = [] := by
    rw [List.filter_eq_nil_iff]
    intro q hq
    obtain ⟨t, ht⟩ := List.mem_iff_getElem?.1 hq
    have htl : t < pts.length := by rw [← h2]; exact (List.getElem?_eq_some_iff.1 ht).1
    obtain ⟨q', hq', u, v, a, b, c, d, e⟩ := h3 t pts[t] (List.getElem?_eq_getElem htl)
    rw [ht] at hq'
    cases hq'
    simp only [decide_eq_true_eq]
    rintro ⟨g1, g2, g3, g4⟩
    apply hout pts[t] (List.getElem_mem htl)
    have q1 : (0 : ℚ) ≤ q.1 := by exact_mod_cast g1
    have q2 : (q.1 : ℚ) + 1 ≤ H := by exact_mod_cast g2
    have q3 : (0 : ℚ) ≤ q.2 := by exact_mod_cast g3
    have q4 : (q.2 : ℚ) + 1 ≤ W := by exact_mod_cast g4
    exact ⟨u, v, by linarith, by linarith, by linarith, by linarith, e⟩
  unfold nearestAt
  simp only [hg.size, hf]

/-- Two points in a two-band 1 × 2 grid with values 0, 1 and 10, 11: the first row should be `[0, 1]`. -/
example : ((fromValues 0 0 ⟨0, 0, 1, 1, 0, 0⟩ (-9) ⟨[1, 2, 2], fun
    | [_, c, k] => some (10 * (k : Int) + c)
    | _ => none⟩).map fun g => g.sampleNearest 0 [(1 / 2, 1 / 2), (3 / 2, 1 / 2)]).toOption.map
      (fun o => o.map fun e => e.toOption) = some (some (some [[0, 10], [1, 11]])) := by
  decide +kernel

/-- A point inside and a point outside the 2 × 2 example. -/
example : (exGrid.map fun g => g.sampleNearest 0 [(7 / 4, 1 / 3), (5, 1 / 2)]).toOption.map
      (fun o => o.map fun e => e.toOption) = some (some (some [[1, -9]])) := by
  decide +kernel

end Karta.Grid
