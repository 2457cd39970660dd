import Verif.Grid.Merge
import Verif.Grid.WindowProps
import Mathlib.Algebra.BigOperators.Group.List.Basic
import Mathlib.Algebra.BigOperators.Ring.Finset
import Mathlib.Algebra.Order.BigOperators.Group.List

/-!
Properties C14 (merging grids) and C15 (gridding points).
-/

namespace Karta.Grid
open Karta Karta.Band Karta.Band.Spec Karta.Band.Indexer

/-! ### Specification of C14 -/

/-- An input of `merge`: the grid, its size and pixels, and its weight. -/
structure Src where
  g : RGrid ℚ
  H : Nat
  W : Nat
  Ps : List (Int → Int → ℚ)
  w : ℚ

/-- The input has `nb` bands, a positive weight, spacing `dx`, `dy` without skew, and its corner is a
whole number of cells from `(X, Y)`. -/
structure Src.Ok (X Y dx dy : ℚ) (nb : Nat) (s : Src) : Prop where
  holds : s.g.Holds s.H s.W s.Ps
  bands : s.Ps.length = nb
  wpos : 0 < s.w
  hdx : s.g.t.dx = dx
  hdy : s.g.t.dy = dy
  hsx : s.g.t.sx = 0
  hsy : s.g.t.sy = 0
  alignx : ∃ p : Int, s.g.t.x0 = X + p * dx
  aligny : ∃ q : Int, s.g.t.y0 = Y + q * dy

/-- The cell of an `H × W` grid whose centre is the point `p`. -/
def cellAt (t : Xform) (H W : Nat) (p : ℚ × ℚ) : Option (Nat × Nat) :=
  ((List.range H).flatMap fun i => (List.range W).map fun j => (i, j)).find? fun ij =>
    decide (centerCoord t ij.1 ij.2 = p)

/-- What an input contributes at the point `p` to band `k`: its weight and its value there, unless the
point is not one of its cell centres or the pixel is without data. -/
def Src.sample (s : Src) (k : Nat) (p : ℚ × ℚ) : Option (ℚ × ℚ) :=
  (cellAt s.g.t s.H s.W p).bind fun ij =>
    if s.Ps.all fun P => decide (P ij.1 ij.2 ≠ s.g.nodata) then s.Ps[k]?.map fun P => (s.w, P ij.1 ij.2)
    else none

/-- The weighted mean of (weight, value) pairs. -/
def wmean (l : List (ℚ × ℚ)) : ℚ := (l.map fun p => p.1 * p.2).sum / (l.map Prod.fst).sum

/-! ### Lemmas -/

theorem trunc_int (n : Int) : trunc (n : ℚ) = n := by unfold trunc; split_ifs <;> simp

theorem natCast_toNat {n : Int} (h : 0 ≤ n) : ((n.toNat : Nat) : ℚ) = (n : ℚ) := by
  exact_mod_cast Int.toNat_of_nonneg h

theorem cellAt_eq {t : Xform} {X Y : ℚ} {p q : Int} (hdx : t.dx ≠ 0) (hdy : t.dy ≠ 0) (hsx : t.sx = 0)
    (hsy : t.sy = 0) (hx : t.x0 = X + p * t.dx) (hy : t.y0 = Y + q * t.dy) (H W : Nat) (r c : Nat) :
    cellAt t H W (centerCoord { t with x0 := X, y0 := Y } r c) =
      if q ≤ r ∧ (r : Int) < q + H ∧ p ≤ c ∧ (c : Int) < p + W then some ((r - q).toNat, (c - p).toNat)
      else none := by
  have key : ∀ i j : Nat, centerCoord t i j = centerCoord { t with x0 := X, y0 := Y } r c ↔
      (i : Int) + q = r ∧ (j : Int) + p = c := by
    intro i j
    simp only [centerCoord, hsx, hsy, mul_zero, add_zero, hx, hy, Prod.mk.injEq]
    constructor
    · rintro ⟨h1, h2⟩
      have a : ((j : ℚ) + p - c) * t.dx = 0 := by push_cast at h1; linear_combination h1
      have b : ((i : ℚ) + q - r) * t.dy = 0 := by push_cast at h2; linear_combination h2
      have a' := (mul_eq_zero.1 a).resolve_right hdx
      have b' := (mul_eq_zero.1 b).resolve_right hdy
      constructor
      · have : (((i : Int) + q : Int) : ℚ) = ((r : Int) : ℚ) := by push_cast; linarith
        exact_mod_cast this
      · have : (((j : Int) + p : Int) : ℚ) = ((c : Int) : ℚ) := by push_cast; linarith
        exact_mod_cast this
    · rintro ⟨h1, h2⟩
      have e1 : (r : ℚ) = i + q := by exact_mod_cast h1.symm
      have e2 : (c : ℚ) = j + p := by exact_mod_cast h2.symm
      push_cast
      rw [e1, e2]
      constructor <;> ring
  unfold cellAt
  by_cases h : q ≤ r ∧ (r : Int) < q + H ∧ p ≤ c ∧ (c : Int) < p + W
  · rw [if_pos h]
    cases hf : (((List.range H).flatMap fun i => (List.range W).map fun j => (i, j)).find? fun ij =>
        decide (centerCoord t ij.1 ij.2 = centerCoord { t with x0 := X, y0 := Y } r c)) with
    | none =>
      rw [List.find?_eq_none] at hf
      have := hf ((r - q).toNat, (c - p).toNat) (by
        simp only [List.mem_flatMap, List.mem_range, List.mem_map, Prod.mk.injEq]
        exact ⟨_, by omega, _, by omega, rfl, rfl⟩)
      simp only [decide_eq_true_eq] at this
      exact absurd ((key _ _).2 ⟨by omega, by omega⟩) this
    | some ij =>
      have := List.find?_some hf
      simp only [decide_eq_true_eq] at this
      obtain ⟨e1, e2⟩ := (key _ _).1 this
      obtain ⟨i, j⟩ := ij
      simp only at e1 e2
      simp only [Option.some.injEq, Prod.mk.injEq]
      omega
  · rw [if_neg h, List.find?_eq_none]
    rintro ⟨i, j⟩ hm
    simp only [List.mem_flatMap, List.mem_range, List.mem_map, Prod.mk.injEq] at hm
    obtain ⟨i', hi, j', hj, rfl, rfl⟩ := hm
    simp only [decide_eq_true_eq]
    intro he
    obtain ⟨e1, e2⟩ := (key _ _).1 he
    apply h
    omega

theorem dataMask_spec {g : RGrid ℚ} {H W : Nat} {Ps : List (Int → Int → ℚ)} (hg : g.Holds H W Ps) (garb : ℚ) :
    ∃ M, g.dataMask garb = .ok M ∧ M.ny = H ∧ M.nx = W ∧ ∀ y x : Nat, y < H → x < W →
      M.get y x = Ps.all fun P => decide (P y x ≠ g.nodata) := by
  obtain ⟨M, e, -, hv⟩ := dataMaskFull_spec hg garb
  refine ⟨_, by unfold RGrid.dataMask; rw [e], by simp [hg.size], by simp [hg.size], ?_⟩
  intro y x hy hx
  simp only
  rw [Bool.eq_iff_iff, List.all_eq_true, List.all_eq_true]
  constructor
  · intro h P hP
    obtain ⟨k, hk⟩ := List.mem_iff_getElem?.1 hP
    have := h k (by rw [List.mem_range, hg.1.1]; exact (List.getElem?_eq_some_iff.1 hk).1)
    rwa [hv y x k P hy hx hk] at this
  · intro h k hk
    rw [List.mem_range, hg.1.1] at hk
    rw [hv y x k _ hy hx (List.getElem?_eq_getElem hk)]
    exact h _ (List.getElem_mem hk)

/-- The weight and weighted value an input adds to the running sums. -/
def addend (κ : ℚ) (o : Option (ℚ × ℚ)) : ℚ × ℚ :=
  match o with
  | some p => (p.1 * κ, p.2 * (p.1 * κ))
  | none => (0, 0)

theorem mergeStep_spec {X Y dx dy : ℚ} {nb : Nat} {s : Src} (hs : s.Ok X Y dx dy nb) (hdx : 0 < dx) (hdy : 0 < dy)
    (garb κ : ℚ) (k : Nat) (hk : k < nb) (st : Arr ℚ × Arr ℚ) (ny nx : Nat) (h1 : st.1.ny = ny) (h2 : st.1.nx = nx)
    (h3 : st.2.ny = ny) (h4 : st.2.nx = nx) (b1 : X ≤ s.g.t.x0) (b2 : Y ≤ s.g.t.y0)
    (b3 : s.g.t.x0 + dx * s.W ≤ X + nx * dx) (b4 : s.g.t.y0 + dy * s.H ≤ Y + ny * dy) :
    ∃ st', mergeStep X Y dx dy garb k st (s.g, s.w * κ) = .ok st' ∧ st'.1.ny = ny ∧ st'.1.nx = nx ∧
      st'.2.ny = ny ∧ st'.2.nx = nx ∧ ∀ r c : Nat, r < ny → c < nx →
        st'.1.get r c = st.1.get r c + (addend κ (s.sample k (centerCoord ⟨X, Y, dx, dy, 0, 0⟩ r c))).1 ∧
        st'.2.get r c = st.2.get r c + (addend κ (s.sample k (centerCoord ⟨X, Y, dx, dy, 0, 0⟩ r c))).2 := by
  obtain ⟨p, hp⟩ := hs.alignx
  obtain ⟨q, hq⟩ := hs.aligny
  have hb := bbox_unskewed s.H s.W (t := s.g.t) (by rw [hs.hdx]; exact hdx) (by rw [hs.hdy]; exact hdy) hs.hsx hs.hsy
  simp only [bbox, Prod.mk.injEq] at hb
  have ox : trunc (((extent s.g.t s.g.size.1 s.g.size.2 false).1 - X) / dx) = p := by
    rw [hs.holds.size]
    simp only
    rw [hb.1, hp, show (X + p * dx - X) / dx = (p : ℚ) by field_simp; ring, trunc_int]
  have oy : trunc (((extent s.g.t s.g.size.1 s.g.size.2 false).2.2.1 - Y) / dy) = q := by
    rw [hs.holds.size]
    simp only
    rw [hb.2.1, hq, show (Y + q * dy - Y) / dy = (q : ℚ) by field_simp; ring, trunc_int]
  have p0 : 0 ≤ p := by
    have : 0 ≤ (p : ℚ) := by
      by_contra hc
      push Not at hc
      have := mul_neg_of_neg_of_pos hc hdx
      linarith
    exact_mod_cast this
  have q0 : 0 ≤ q := by
    have : 0 ≤ (q : ℚ) := by
      by_contra hc
      push Not at hc
      have := mul_neg_of_neg_of_pos hc hdy
      linarith
    exact_mod_cast this
  have pW : p + s.W ≤ nx := by
    have : ((p + s.W : Int) : ℚ) * dx ≤ ((nx : Int) : ℚ) * dx := by push_cast; rw [hp] at b3; linarith
    exact_mod_cast le_of_mul_le_mul_right this hdx
  have qH : q + s.H ≤ ny := by
    have : ((q + s.H : Int) : ℚ) * dy ≤ ((ny : Int) : ℚ) * dy := by push_cast; rw [hq] at b4; linarith
    exact_mod_cast le_of_mul_le_mul_right this hdy
  obtain ⟨M, m1, m2, m3, m4⟩ := dataMask_spec hs.holds garb
  have hkb : k < s.g.bands.length := by rw [hs.holds.1.1, hs.bands]; exact hk
  obtain ⟨b, P, hb1, hb2, hb3⟩ := hs.holds.1.at (k := k) hkb
  obtain ⟨-, s1, s2, -⟩ := hb3.sound
  obtain ⟨blk, g1, g2, g3, g4⟩ := hb3.getblock 0 0 s.H s.W (by refine ⟨?_, ?_, ?_, ?_, ?_, ?_⟩ <;> simp)
  have hin : 0 ≤ q ∧ 0 ≤ p ∧ q + M.ny ≤ ny ∧ p + M.nx ≤ nx := by rw [m2, m3]; exact ⟨q0, p0, qH, pW⟩
  refine ⟨_, by
    unfold mergeStep
    simp only [ox, oy, m1]
    unfold addMasked
    rw [h1, h2, h3, h4, if_pos hin, hb1]
    simp only [s1, s2, g1]
    rw [if_pos hin], rfl, rfl, rfl, rfl, ?_⟩
  intro r c hr hc
  have hcell := cellAt_eq (t := s.g.t) (X := X) (Y := Y) (p := p) (q := q) (by rw [hs.hdx]; exact hdx.ne')
    (by rw [hs.hdy]; exact hdy.ne') hs.hsx hs.hsy (by rw [hs.hdx]; exact hp) (by rw [hs.hdy]; exact hq) s.H s.W r c
  rw [hs.hdx, hs.hdy, hs.hsx, hs.hsy] at hcell
  simp only [m2, m3]
  unfold Src.sample
  rw [hcell]
  by_cases hw : q ≤ r ∧ (r : Int) < q + s.H ∧ p ≤ c ∧ (c : Int) < p + s.W
  · rw [if_pos hw, Option.bind_some]
    have hm := m4 (r - q).toNat (c - p).toNat (by omega) (by omega)
    have hgv := g4 (r - q).toNat (c - p).toNat (by omega) (by omega)
    by_cases hv : (s.Ps.all fun P => decide (P ((r - q).toNat : Int) ((c - p).toNat : Int) ≠ s.g.nodata)) = true
    · rw [if_pos hv]
      rw [hv] at hm
      simp only [hw, hm, and_self, if_true, hb2, Option.map_some, addend, hgv, Option.getD_some, zero_add]
    · rw [if_neg hv]
      have hm' : M.get (r - q).toNat (c - p).toNat = false := by rw [hm]; simpa using hv
      simp [hm', addend]
  · rw [if_neg hw, Option.bind_none]
    have : ¬ (q ≤ r ∧ (r : Int) < q + s.H ∧ p ≤ c ∧ (c : Int) < p + s.W ∧ M.get (r - q).toNat (c - p).toNat = true) := by
      intro h; exact hw ⟨h.1, h.2.1, h.2.2.1, h.2.2.2.1⟩
    rw [if_neg this, if_neg this]
    simp [addend]

theorem mergeLoop_spec {X Y dx dy : ℚ} {nb : Nat} (hdx : 0 < dx) (hdy : 0 < dy)
    (garb κ : ℚ) (k : Nat) (hk : k < nb) (ny nx : Nat) :
    ∀ (L : List Src), (∀ s ∈ L, s.Ok X Y dx dy nb ∧ X ≤ s.g.t.x0 ∧ Y ≤ s.g.t.y0 ∧
      s.g.t.x0 + dx * s.W ≤ X + nx * dx ∧ s.g.t.y0 + dy * s.H ≤ Y + ny * dy) →
    ∀ st : Arr ℚ × Arr ℚ, st.1.ny = ny → st.1.nx = nx → st.2.ny = ny → st.2.nx = nx →
    ∃ st', mergeLoop X Y dx dy garb k (L.map fun s => (s.g, s.w * κ)) st = .ok st' ∧
      ∀ r c : Nat, r < ny → c < nx →
        st'.1.get r c = st.1.get r c +
          ((L.filterMap fun s => s.sample k (centerCoord ⟨X, Y, dx, dy, 0, 0⟩ r c)).map Prod.fst).sum * κ ∧
        st'.2.get r c = st.2.get r c +
          ((L.filterMap fun s => s.sample k (centerCoord ⟨X, Y, dx, dy, 0, 0⟩ r c)).map
            fun p => p.1 * p.2).sum * κ := by
  intro L
  induction L with
  | nil =>
    intro _ st _ _ _ _
    exact ⟨st, rfl, by intro r c _ _; simp⟩
  | cons s L ih =>
    intro hL st h1 h2 h3 h4
    obtain ⟨ho, b1, b2, b3, b4⟩ := hL s (by simp)
    obtain ⟨st1, e1, a1, a2, a3, a4, hv⟩ := mergeStep_spec ho hdx hdy garb κ k hk st ny nx h1 h2 h3 h4 b1 b2 b3 b4
    obtain ⟨st2, e2, hv2⟩ := ih (fun t ht => hL t (by simp [ht])) st1 a1 a2 a3 a4
    refine ⟨st2, by simp only [List.map_cons, mergeLoop, e1, e2], ?_⟩
    intro r c hr hc
    obtain ⟨v1, v2⟩ := hv r c hr hc
    obtain ⟨w1, w2⟩ := hv2 r c hr hc
    rw [w1, w2, v1, v2]
    cases hsm : s.sample k (centerCoord ⟨X, Y, dx, dy, 0, 0⟩ r c) with
    | none => simp [hsm, addend]
    | some p => simp only [List.filterMap_cons, hsm, addend, List.map_cons, List.sum_cons]; constructor <;> ring

theorem sample_weight {X Y dx dy : ℚ} {nb : Nat} {s : Src} (hs : s.Ok X Y dx dy nb) (k : Nat) (p : ℚ × ℚ)
    {a : ℚ × ℚ} (h : s.sample k p = some a) : 0 < a.1 := by
  unfold Src.sample at h
  rw [Option.bind_eq_some_iff] at h
  obtain ⟨ij, -, h⟩ := h
  split_ifs at h
  rw [Option.map_eq_some_iff] at h
  obtain ⟨P, -, rfl⟩ := h
  exact hs.wpos

theorem mergeBand_spec {X Y dx dy : ℚ} {nb : Nat} (hdx : 0 < dx) (hdy : 0 < dy) (garb nodata κ : ℚ) (hκ : 0 < κ)
    (k : Nat) (hk : k < nb) (ny nx : Nat) (L : List Src)
    (hL : ∀ s ∈ L, s.Ok X Y dx dy nb ∧ X ≤ s.g.t.x0 ∧ Y ≤ s.g.t.y0 ∧
      s.g.t.x0 + dx * s.W ≤ X + nx * dx ∧ s.g.t.y0 + dy * s.H ≤ Y + ny * dy) :
    ∃ b P, mergeBand X Y dx dy garb nodata ny nx (L.map fun s => (s.g, s.w * κ)) k = .ok b ∧ Reach ny nx b P ∧
      ∀ y x : Nat, y < ny → x < nx → P y x =
        if (L.filterMap fun s => s.sample k (centerCoord ⟨X, Y, dx, dy, 0, 0⟩ y x)) = [] then nodata
        else wmean (L.filterMap fun s => s.sample k (centerCoord ⟨X, Y, dx, dy, 0, 0⟩ y x)) := by
  obtain ⟨st, e, hv⟩ := mergeLoop_spec hdx hdy garb κ k hk ny nx L hL
    (⟨ny, nx, fun _ _ => 0⟩, ⟨ny, nx, fun _ _ => 0⟩) rfl rfl rfl rfl
  obtain ⟨b', e2, hr⟩ := (Reach.new (H := ny) (W := nx) 256 256 (by norm_num) (by norm_num) nodata).setblock
    ⟨0, 0, ⟨ny, nx, fun r c => if st.1.get r c ≠ 0 then st.2.get r c / st.1.get r c else nodata⟩⟩
    ⟨le_refl _, le_refl _, by simp, by simp, by simp, by simp⟩
  refine ⟨b', _, ?_, hr, ?_⟩
  · unfold mergeBand; rw [e]; simp only at e2 ⊢; rw [e2]
  · intro y x hy hx
    rw [if_pos (by refine ⟨?_, ?_, ?_, ?_⟩ <;> simp <;> omega)]
    simp only [Write.valueAt, sub_zero, Int.toNat_natCast]
    obtain ⟨v1, v2⟩ := hv y x hy hx
    simp only [zero_add] at v1 v2
    rw [v1, v2]
    have hpos : ∀ a ∈ L.filterMap (fun s => s.sample k (centerCoord ⟨X, Y, dx, dy, 0, 0⟩ y x)), 0 < a.1 := by
      intro a ha
      rw [List.mem_filterMap] at ha
      obtain ⟨s, hs, ha⟩ := ha
      exact sample_weight (hL s hs).1 k _ ha
    generalize hl : L.filterMap (fun s => s.sample k (centerCoord ⟨X, Y, dx, dy, 0, 0⟩ y x)) = l at hpos ⊢
    by_cases h0 : l = []
    · subst h0; simp
    · rw [if_neg h0]
      have hsum : 0 < (l.map Prod.fst).sum := List.sum_pos _ (by
        intro a ha
        obtain ⟨b, hb, rfl⟩ := List.mem_map.1 ha
        exact hpos b hb) (by simpa using h0)
      rw [if_pos (by positivity)]
      unfold wmean
      have := hκ.ne'
      have := hsum.ne'
      field_simp

theorem unionExtent_spec (rest : List (RGrid ℚ)) (g0 : RGrid ℚ) :
    let ext := fun g : RGrid ℚ => extent g.t g.size.1 g.size.2 false
    let e := unionExtent g0 rest
    (∀ g ∈ g0 :: rest, e.1 ≤ (ext g).1 ∧ (ext g).2.1 ≤ e.2.1 ∧ e.2.2.1 ≤ (ext g).2.2.1 ∧ (ext g).2.2.2 ≤ e.2.2.2) ∧
    (∃ g ∈ g0 :: rest, e.1 = (ext g).1) ∧ (∃ g ∈ g0 :: rest, e.2.1 = (ext g).2.1) ∧
    (∃ g ∈ g0 :: rest, e.2.2.1 = (ext g).2.2.1) ∧ (∃ g ∈ g0 :: rest, e.2.2.2 = (ext g).2.2.2) := by
  have key : ∀ (l : List (RGrid ℚ)) (l0 : List (RGrid ℚ)) (a : ℚ × ℚ × ℚ × ℚ),
      let ext := fun g : RGrid ℚ => extent g.t g.size.1 g.size.2 false
      let R := fun (l : List (RGrid ℚ)) (e : ℚ × ℚ × ℚ × ℚ) =>
        (∀ g ∈ l, e.1 ≤ (ext g).1 ∧ (ext g).2.1 ≤ e.2.1 ∧ e.2.2.1 ≤ (ext g).2.2.1 ∧ (ext g).2.2.2 ≤ e.2.2.2) ∧
        (∃ g ∈ l, e.1 = (ext g).1) ∧ (∃ g ∈ l, e.2.1 = (ext g).2.1) ∧
        (∃ g ∈ l, e.2.2.1 = (ext g).2.2.1) ∧ (∃ g ∈ l, e.2.2.2 = (ext g).2.2.2)
      R l0 a → R (l0 ++ l) (l.foldl (fun a g =>
        let e := extent g.t g.size.1 g.size.2 false
        (min a.1 e.1, max a.2.1 e.2.1, min a.2.2.1 e.2.2.1, max a.2.2.2 e.2.2.2)) a) := by
    intro l
    induction l with
    | nil => intro l0 a ext R h; simpa using h
    | cons g l ih =>
      intro l0 a ext R h
      simp only [List.foldl_cons]
      have : l0 ++ g :: l = (l0 ++ [g]) ++ l := by simp
      rw [this]
      apply ih (l0 ++ [g])
      obtain ⟨h1, ⟨g1, m1, e1⟩, ⟨g2, m2, e2⟩, ⟨g3, m3, e3⟩, ⟨g4, m4, e4⟩⟩ := h
      refine ⟨?_, ?_, ?_, ?_, ?_⟩
      · intro g' hg'
        rw [List.mem_append, List.mem_singleton] at hg'
        rcases hg' with hg' | rfl
        · obtain ⟨a1, a2, a3, a4⟩ := h1 g' hg'
          exact ⟨(min_le_left _ _).trans a1, a2.trans (le_max_left _ _), (min_le_left _ _).trans a3,
            a4.trans (le_max_left _ _)⟩
        · exact ⟨min_le_right _ _, le_max_right _ _, min_le_right _ _, le_max_right _ _⟩
      · rcases min_choice a.1 (ext g).1 with h | h
        · exact ⟨g1, by simp [m1], h.trans e1⟩
        · exact ⟨g, by simp, h⟩
      · rcases max_choice a.2.1 (ext g).2.1 with h | h
        · exact ⟨g2, by simp [m2], h.trans e2⟩
        · exact ⟨g, by simp, h⟩
      · rcases min_choice a.2.2.1 (ext g).2.2.1 with h | h
        · exact ⟨g3, by simp [m3], h.trans e3⟩
        · exact ⟨g, by simp, h⟩
      · rcases max_choice a.2.2.2 (ext g).2.2.2 with h | h
        · exact ⟨g4, by simp [m4], h.trans e4⟩
        · exact ⟨g, by simp, h⟩
  have := key rest [g0] (extent g0.t g0.size.1 g0.size.2 false) ⟨by simp, by simp, by simp, by simp, by simp⟩
  exact this

theorem mapM_bands {ny nx : Nat} {R : Nat → (Int → Int → ℚ) → Prop} (f : Nat → Except Err (CBand ℚ)) (n : Nat)
    (h : ∀ k, k < n → ∃ b P, f k = .ok b ∧ Reach ny nx b P ∧ R k P) :
    ∃ bs Ps, (List.range n).mapM f = .ok bs ∧ bs.length = n ∧ Bands ny nx bs Ps ∧
      ∀ (k : Nat) P, Ps[k]? = some P → R k P := by
  have h' : ∀ k : Fin n, ∃ b P, f k = .ok b ∧ Reach ny nx b P ∧ R k P := fun k => h k k.2
  choose fb fP h1 h2 h3 using h'
  obtain ⟨bs, e, l, g⟩ := mapM_ok f (List.range n) (fun k hk => ⟨fb ⟨k, List.mem_range.1 hk⟩, h1 ⟨k, List.mem_range.1 hk⟩⟩)
  rw [List.length_range] at l
  have hg : ∀ (k : Nat) (hk : k < n), bs[k]? = some (fb ⟨k, hk⟩) := by
    intro k hk
    obtain ⟨y, hy, hy2⟩ := g k k (by simp [hk])
    rw [h1 ⟨k, hk⟩] at hy2
    cases hy2
    exact hy
  refine ⟨bs, List.ofFn fP, e, l, ⟨by simp [l], ?_⟩, ?_⟩
  · intro k b P hb hP
    have hk : k < n := by rw [← l]; exact (List.getElem?_eq_some_iff.1 hb).1
    rw [hg k hk] at hb
    cases hb
    simp only [List.getElem?_ofFn, hk, dif_pos, Option.some.injEq] at hP
    subst hP
    exact h2 _
  · intro k P hP
    have hk : k < n := by simpa using (List.getElem?_eq_some_iff.1 hP).1
    simp only [List.getElem?_ofFn, hk, dif_pos, Option.some.injEq] at hP
    subst hP
    exact h3 ⟨k, hk⟩

/-- The whole statement of C14 for given inputs and result. -/
structure Merged (srcs : List Src) (nd : ℚ) (nb : Nat) (g' : RGrid ℚ) (H' W' : Nat)
    (Ps' : List (Int → Int → ℚ)) : Prop where
  holds : g'.Holds H' W' Ps'
  bands : Ps'.length = nb
  nodata : g'.nodata = nd
  spacing : ∀ s ∈ srcs, g'.t.dx = s.g.t.dx ∧ g'.t.dy = s.g.t.dy ∧ g'.t.sx = s.g.t.sx ∧ g'.t.sy = s.g.t.sy
  spans : ∀ s ∈ srcs, g'.t.x0 ≤ s.g.t.x0 ∧ g'.t.y0 ≤ s.g.t.y0 ∧
    s.g.t.x0 + s.W * s.g.t.dx ≤ g'.t.x0 + W' * g'.t.dx ∧ s.g.t.y0 + s.H * s.g.t.dy ≤ g'.t.y0 + H' * g'.t.dy
  tight_left : ∃ s ∈ srcs, g'.t.x0 = s.g.t.x0
  tight_bottom : ∃ s ∈ srcs, g'.t.y0 = s.g.t.y0
  tight_right : ∃ s ∈ srcs, g'.t.x0 + W' * g'.t.dx = s.g.t.x0 + s.W * s.g.t.dx
  tight_top : ∃ s ∈ srcs, g'.t.y0 + H' * g'.t.dy = s.g.t.y0 + s.H * s.g.t.dy
  values : ∀ (k : Nat) P, Ps'[k]? = some P → ∀ y x : Nat, y < H' → x < W' →
    P y x = if (srcs.filterMap fun s => s.sample k (centerCoord g'.t y x)) = [] then nd
      else wmean (srcs.filterMap fun s => s.sample k (centerCoord g'.t y x))

/-- C14, for positive spacing and no skew: merging aligned grids with positive weights succeeds; the
result spans exactly the union of the inputs, and each of its cells is the weighted mean of the valid
values of the inputs that have a cell there, or nodata when there are none.  (A pixel is valid when it
holds data in every band.)  The negative-spacing case is refuted by `C14_violated_negative_spacing`. -/
theorem C14_merge_partial (garb X Y dx dy : ℚ) (hdx : 0 < dx) (hdy : 0 < dy) (nb : Nat) (s0 : Src) (ss : List Src)
    (hok : ∀ s ∈ s0 :: ss, s.Ok X Y dx dy nb) :
    ∃ g' H' W' Ps', merge garb ((s0 :: ss).map Src.g) (some ((s0 :: ss).map Src.w)) = .ok g' ∧
      Merged (s0 :: ss) s0.g.nodata nb g' H' W' Ps' := by
  have hok0 := hok s0 (by simp)
  -- extents of the inputs
  have hext : ∀ s ∈ s0 :: ss, extent s.g.t s.g.size.1 s.g.size.2 false =
      (s.g.t.x0, s.g.t.x0 + dx * s.W, s.g.t.y0, s.g.t.y0 + dy * s.H) := by
    intro s hs
    have ho := hok s hs
    have hb := bbox_unskewed s.H s.W (t := s.g.t) (by rw [ho.hdx]; exact hdx) (by rw [ho.hdy]; exact hdy) ho.hsx ho.hsy
    rw [ho.holds.size]
    simp only [bbox, Prod.mk.injEq] at hb
    rw [ho.hdx, ho.hdy] at hb
    obtain ⟨h1, h2, h3, h4⟩ := hb
    rw [← Prod.eta (extent _ _ _ _), ← Prod.eta (extent _ _ _ _).2, ← Prod.eta (extent _ _ _ _).2.2, h1, h2, h3, h4]
  obtain ⟨u0, u1, u2, u3, u4⟩ := unionExtent_spec (ss.map Src.g) s0.g
  simp only at u0 u1 u2 u3 u4
  generalize he : unionExtent s0.g (ss.map Src.g) = e at u0 u1 u2 u3 u4
  have toSrc : ∀ {Q : RGrid ℚ → Prop}, (∃ g ∈ s0.g :: ss.map Src.g, Q g) → ∃ s ∈ s0 :: ss, Q s.g := by
    rintro Q ⟨g, hg, hq⟩
    rw [← List.map_cons, List.mem_map] at hg
    obtain ⟨s, hs, rfl⟩ := hg
    exact ⟨s, hs, hq⟩
  obtain ⟨s1, m1, v1⟩ := toSrc u1
  obtain ⟨s2, m2, v2⟩ := toSrc u2
  obtain ⟨s3, m3, v3⟩ := toSrc u3
  obtain ⟨s4, m4, v4⟩ := toSrc u4
  rw [hext s1 m1] at v1
  rw [hext s2 m2] at v2
  rw [hext s3 m3] at v3
  rw [hext s4 m4] at v4
  simp only at v1 v2 v3 v4
  have u : ∀ s ∈ s0 :: ss, e.1 ≤ s.g.t.x0 ∧ s.g.t.x0 + dx * s.W ≤ e.2.1 ∧ e.2.2.1 ≤ s.g.t.y0 ∧
      s.g.t.y0 + dy * s.H ≤ e.2.2.2 := by
    intro s hs
    have := u0 s.g (by rw [← List.map_cons]; exact List.mem_map_of_mem hs)
    rw [hext s hs] at this
    exact this
  -- sizes
  obtain ⟨Nx, hNx⟩ : ∃ N : Nat, e.2.1 = e.1 + N * dx := by
    obtain ⟨p1, hp1⟩ := (hok s1 m1).alignx
    obtain ⟨p2, hp2⟩ := (hok s2 m2).alignx
    have h1 : e.2.1 = e.1 + ((p2 + s2.W - p1 : Int) : ℚ) * dx := by rw [v1, v2, hp1, hp2]; push_cast; ring
    have h0 : 0 ≤ p2 + s2.W - p1 := by
      have h2 := (u s1 m1).1.trans ((le_add_of_nonneg_right (by positivity)).trans (u s1 m1).2.1)
      have h2 : 0 ≤ ((p2 + s2.W - p1 : Int) : ℚ) * dx := by linarith
      have := nonneg_of_mul_nonneg_left h2 hdx
      exact_mod_cast this
    refine ⟨(p2 + s2.W - p1).toNat, ?_⟩
    rw [h1, ← natCast_toNat h0]
  obtain ⟨Ny, hNy⟩ : ∃ N : Nat, e.2.2.2 = e.2.2.1 + N * dy := by
    obtain ⟨p1, hp1⟩ := (hok s3 m3).aligny
    obtain ⟨p2, hp2⟩ := (hok s4 m4).aligny
    have h1 : e.2.2.2 = e.2.2.1 + ((p2 + s4.H - p1 : Int) : ℚ) * dy := by rw [v3, v4, hp1, hp2]; push_cast; ring
    have h0 : 0 ≤ p2 + s4.H - p1 := by
      have h2 := (u s3 m3).2.2.1.trans ((le_add_of_nonneg_right (by positivity)).trans (u s3 m3).2.2.2)
      have h2 : 0 ≤ ((p2 + s4.H - p1 : Int) : ℚ) * dy := by linarith
      have := nonneg_of_mul_nonneg_left h2 hdy
      exact_mod_cast this
    refine ⟨(p2 + s4.H - p1).toNat, ?_⟩
    rw [h1, ← natCast_toNat h0]
  have hnx : rint ((e.2.1 - e.1) / dx) = Nx := by
    rw [hNx, show (e.1 + Nx * dx - e.1) / dx = ((Nx : Int) : ℚ) by push_cast; field_simp; ring, rint_int]
  have hny : rint ((e.2.2.2 - e.2.2.1) / dy) = Ny := by
    rw [hNy, show (e.2.2.1 + Ny * dy - e.2.2.1) / dy = ((Ny : Int) : ℚ) by push_cast; field_simp; ring, rint_int]
  -- the inputs seen from the new origin
  have hsrc : ∀ s ∈ s0 :: ss, s.Ok e.1 e.2.2.1 dx dy nb ∧ e.1 ≤ s.g.t.x0 ∧ e.2.2.1 ≤ s.g.t.y0 ∧
      s.g.t.x0 + dx * s.W ≤ e.1 + Nx * dx ∧ s.g.t.y0 + dy * s.H ≤ e.2.2.1 + Ny * dy := by
    intro s hs
    have ho := hok s hs
    obtain ⟨a1, a2, a3, a4⟩ := u s hs
    refine ⟨⟨ho.holds, ho.bands, ho.wpos, ho.hdx, ho.hdy, ho.hsx, ho.hsy, ?_, ?_⟩, a1, a3, by rw [← hNx]; exact a2,
      by rw [← hNy]; exact a4⟩
    · obtain ⟨p, hp⟩ := ho.alignx
      obtain ⟨p1, hp1⟩ := (hok s1 m1).alignx
      exact ⟨p - p1, by rw [v1, hp, hp1]; push_cast; ring⟩
    · obtain ⟨p, hp⟩ := ho.aligny
      obtain ⟨p1, hp1⟩ := (hok s3 m3).aligny
      exact ⟨p - p1, by rw [v3, hp, hp1]; push_cast; ring⟩
  -- weights
  have hS : 0 < ((s0 :: ss).map Src.w).sum := List.sum_pos _ (by
    intro a ha
    obtain ⟨s, hs, rfl⟩ := List.mem_map.1 ha
    exact (hok s hs).wpos) (by simp)
  generalize hSd : ((s0 :: ss).map Src.w).sum = S at hS
  have hκ : 0 < (((s0 :: ss).map Src.w).length : ℚ) / S := by
    apply div_pos _ hS
    simp only [List.length_map, List.length_cons, Nat.cast_add, Nat.cast_one]
    positivity
  have hzip : ((s0 :: ss).map Src.g).zip (normWeights ((s0 :: ss).map Src.g).length (some ((s0 :: ss).map Src.w))) =
      (s0 :: ss).map fun s => (s.g, s.w * ((((s0 :: ss).map Src.w).length : ℚ) / S)) := by
    simp only [normWeights, hSd, List.map_map]
    rw [List.zip_map']
    apply List.map_congr_left
    intro s _
    simp only [Function.comp_apply, Prod.mk.injEq, true_and]
    ring
  generalize (((s0 :: ss).map Src.w).length : ℚ) / S = κ at hκ hzip
  have hblen : s0.g.bands.length = nb := by rw [hok0.holds.1.1, hok0.bands]
  obtain ⟨bs, Ps', e1, e2, e3, e4⟩ := mapM_bands (ny := Ny) (nx := Nx)
    (R := fun k P => ∀ y x : Nat, y < Ny → x < Nx → P y x =
        if ((s0 :: ss).filterMap fun s => s.sample k (centerCoord ⟨e.1, e.2.2.1, dx, dy, 0, 0⟩ y x)) = [] then s0.g.nodata
        else wmean ((s0 :: ss).filterMap fun s => s.sample k (centerCoord ⟨e.1, e.2.2.1, dx, dy, 0, 0⟩ y x)))
    (mergeBand e.1 e.2.2.1 dx dy garb s0.g.nodata Ny Nx ((s0 :: ss).map fun s => (s.g, s.w * κ))) nb
    (fun k hk => mergeBand_spec hdx hdy garb s0.g.nodata κ hκ k hk Ny Nx (s0 :: ss) hsrc)
  refine ⟨⟨⟨e.1, e.2.2.1, dx, dy, 0, 0⟩, bs, s0.g.nodata⟩, Ny, Nx, Ps', ?_, ⟨⟨e3, ?_⟩, ?_, rfl, ?_, ?_, ?_, ?_, ?_, ?_, ?_⟩⟩
  · rw [List.map_cons] at hzip ⊢
    unfold merge
    simp only
    rw [if_neg (by
      rw [not_not, List.all_eq_true]
      intro g hg
      obtain ⟨s, hs, rfl⟩ := List.mem_map.1 hg
      have ho := hok s (by simp [hs])
      simp only [decide_eq_true_eq]
      rw [ho.hdx, ho.hdy, ho.hsx, ho.hsy, hok0.hdx, hok0.hdy, hok0.hsx, hok0.hsy]
      simp)]
    rw [if_neg (by rw [hok0.hdx, hok0.hdy]; exact not_or.2 ⟨hdx.ne', hdy.ne'⟩)]
    rw [if_neg (by
      rw [not_not, List.all_eq_true]
      intro g hg
      obtain ⟨s, hs, rfl⟩ := List.mem_map.1 hg
      have ho := hok s (by simp [hs])
      obtain ⟨p, hp⟩ := ho.alignx
      obtain ⟨q, hq⟩ := ho.aligny
      obtain ⟨p0, hp0⟩ := hok0.alignx
      obtain ⟨q0, hq0⟩ := hok0.aligny
      unfold offsetOk
      rw [hp, hq, hp0, hq0, hok0.hdx, hok0.hdy,
        show (X + p * dx - (X + p0 * dx)) / dx = ((p - p0 : Int) : ℚ) by push_cast; field_simp; ring,
        show (Y + q * dy - (Y + q0 * dy)) / dy = ((q - q0 : Int) : ℚ) by push_cast; field_simp; ring]
      simp only [Int.fract_intCast]
      norm_num)]
    rw [if_neg (by
      rw [not_not, List.all_eq_true]
      intro g hg
      obtain ⟨s, hs, rfl⟩ := List.mem_map.1 hg
      have ho := hok s (by simp [hs])
      rw [ho.holds.1.1, hok0.holds.1.1, ho.bands, hok0.bands]
      simp)]
    rw [he, hok0.hdx, hok0.hdy, hnx, hny, if_neg (by omega), hzip, hblen]
    simp only [Int.toNat_natCast]
    rw [e1, hok0.hsx, hok0.hsy]
  · intro h
    have := hok0.holds.2
    simp only at h
    rw [h] at e2
    simp only [List.length_nil] at e2
    rw [← e2] at hblen
    exact this (List.length_eq_zero_iff.1 hblen)
  · rw [← e3.1, e2]
  · intro s hs
    have ho := hok s hs
    rw [ho.hdx, ho.hdy, ho.hsx, ho.hsy]
    exact ⟨rfl, rfl, rfl, rfl⟩
  · intro s hs
    obtain ⟨-, a1, a2, a3, a4⟩ := hsrc s hs
    rw [(hok s hs).hdx, (hok s hs).hdy]
    exact ⟨a1, a2, by linarith, by linarith⟩
  · exact ⟨s1, m1, v1⟩
  · exact ⟨s3, m3, v3⟩
  · exact ⟨s2, m2, by simp only; rw [← hNx, v2, (hok s2 m2).hdx]; ring⟩
  · exact ⟨s4, m4, by simp only; rw [← hNy, v4, (hok s4 m4).hdy]; ring⟩
  · exact e4

/-- C14: without weights, all inputs count the same. -/
theorem C14_default_weights (garb : ℚ) (gs : List (RGrid ℚ)) :
    merge garb gs none = merge garb gs (some (gs.map fun _ => 1)) := by
  have : ∀ n, normWeights n none = normWeights n (some ((List.range n).map fun _ => (1 : ℚ))) := by
    intro n
    simp [normWeights, List.map_const']
  have e : normWeights gs.length none = normWeights gs.length (some (gs.map fun _ => (1 : ℚ))) := by
    rw [this]
    simp [normWeights, List.map_const']
  unfold merge
  cases gs with
  | nil => rfl
  | cons g gs => simp only [e]

/-- C14: multiplying all weights by the same factor changes nothing. -/
theorem C14_weights_scale (garb c : ℚ) (hc : c ≠ 0) (gs : List (RGrid ℚ)) (ws : List ℚ) :
    merge garb gs (some (ws.map (c * ·))) = merge garb gs (some ws) := by
  have e : normWeights gs.length (some (ws.map (c * ·))) = normWeights gs.length (some ws) := by
    simp only [normWeights, List.length_map, List.map_map]
    apply List.map_congr_left
    intro w _
    have hsum : ∀ l : List ℚ, (l.map (c * ·)).sum = c * l.sum := by
      intro l
      induction l with
      | nil => simp
      | cons a l ih => simp only [List.map_cons, List.sum_cons, ih]; ring
    simp only [Function.comp_apply, hsum]
    by_cases hs : ws.sum = 0
    · simp [hs]
    · field_simp
  unfold merge
  cases gs with
  | nil => rfl
  | cons g gs => simp only [e]

theorem Merged.frame_unique {srcs srcs' : List Src} {nd nd' : ℚ} {nb : Nat} {g g' : RGrid ℚ} {H H' W W' : Nat}
    {Ps Ps' : List (Int → Int → ℚ)} (hm : Merged srcs nd nb g H W Ps) (hm' : Merged srcs' nd' nb g' H' W' Ps')
    (hp : ∀ s, s ∈ srcs ↔ s ∈ srcs') (hdx : ∀ s ∈ srcs, 0 < s.g.t.dx) (hdy : ∀ s ∈ srcs, 0 < s.g.t.dy) :
    g'.t = g.t ∧ H' = H ∧ W' = W := by
  obtain ⟨s1, m1, v1⟩ := hm.tight_left
  obtain ⟨s2, m2, v2⟩ := hm.tight_bottom
  obtain ⟨s3, m3, v3⟩ := hm.tight_right
  obtain ⟨s4, m4, v4⟩ := hm.tight_top
  obtain ⟨t1, n1, w1⟩ := hm'.tight_left
  obtain ⟨t2, n2, w2⟩ := hm'.tight_bottom
  obtain ⟨t3, n3, w3⟩ := hm'.tight_right
  obtain ⟨t4, n4, w4⟩ := hm'.tight_top
  have hx : g'.t.x0 = g.t.x0 := by
    have a := (hm.spans t1 ((hp _).2 n1)).1
    have b := (hm'.spans s1 ((hp _).1 m1)).1
    linarith
  have hy : g'.t.y0 = g.t.y0 := by
    have a := (hm.spans t2 ((hp _).2 n2)).2.1
    have b := (hm'.spans s2 ((hp _).1 m2)).2.1
    linarith
  obtain ⟨d1, d2, d3, d4⟩ := hm.spacing s1 m1
  obtain ⟨e1, e2, e3, e4⟩ := hm'.spacing s1 ((hp _).1 m1)
  have hdx1 := hdx s1 m1
  have hdy1 := hdy s1 m1
  refine ⟨?_, ?_, ?_⟩
  · obtain ⟨⟨x0, y0, dx, dy, sx, sy⟩, b, nd⟩ := g
    obtain ⟨⟨x0', y0', dx', dy', sx', sy'⟩, b', nd'⟩ := g'
    simp only at *
    rw [hx, hy, d1, d2, d3, d4, e1, e2, e3, e4]
  · have a := (hm.spans t4 ((hp _).2 n4)).2.2.2
    have b := (hm'.spans s4 ((hp _).1 m4)).2.2.2
    have : (H' : ℚ) * s1.g.t.dy = H * s1.g.t.dy := by rw [d2] at a v4; rw [e2] at b w4; linarith
    have := mul_right_cancel₀ hdy1.ne' this
    exact_mod_cast this
  · have a := (hm.spans t3 ((hp _).2 n3)).2.2.1
    have b := (hm'.spans s3 ((hp _).1 m3)).2.2.1
    have : (W' : ℚ) * s1.g.t.dx = W * s1.g.t.dx := by rw [d1] at a v3; rw [e1] at b w3; linarith
    have := mul_right_cancel₀ hdx1.ne' this
    exact_mod_cast this

/-- C14: the order of the inputs (with their weights) does not matter, provided they share the nodata
value. -/
theorem C14_order (garb X Y dx dy : ℚ) (hdx : 0 < dx) (hdy : 0 < dy) (nb : Nat) (s0 t0 : Src) (ss ts : List Src)
    (hok : ∀ s ∈ s0 :: ss, s.Ok X Y dx dy nb) (hperm : (t0 :: ts).Perm (s0 :: ss))
    (hnd : ∀ s ∈ s0 :: ss, s.g.nodata = s0.g.nodata) :
    ∃ g g' H W Ps Ps', merge garb ((s0 :: ss).map Src.g) (some ((s0 :: ss).map Src.w)) = .ok g ∧
      merge garb ((t0 :: ts).map Src.g) (some ((t0 :: ts).map Src.w)) = .ok g' ∧
      g.Holds H W Ps ∧ g'.Holds H W Ps' ∧ g'.t = g.t ∧ g'.nodata = g.nodata ∧ Ps'.length = Ps.length ∧
      ∀ (k : Nat) P P', Ps[k]? = some P → Ps'[k]? = some P' → ∀ y x : Nat, y < H → x < W → P' y x = P y x := by
  obtain ⟨g, H, W, Ps, e, hm⟩ := C14_merge_partial garb X Y dx dy hdx hdy nb s0 ss hok
  obtain ⟨g', H', W', Ps', e', hm'⟩ := C14_merge_partial garb X Y dx dy hdx hdy nb t0 ts
    (fun s hs => hok s (hperm.mem_iff.1 hs))
  obtain ⟨f1, rfl, rfl⟩ := hm.frame_unique hm' (fun s => hperm.mem_iff.symm)
    (fun s hs => by rw [(hok s hs).hdx]; exact hdx) (fun s hs => by rw [(hok s hs).hdy]; exact hdy)
  have hn : t0.g.nodata = s0.g.nodata := hnd t0 (hperm.mem_iff.1 (by simp))
  refine ⟨g, g', H', W', Ps, Ps', e, e', hm.holds, hm'.holds, f1, by rw [hm.nodata, hm'.nodata, hn],
    by rw [hm.bands, hm'.bands], ?_⟩
  intro k P P' hP hP' y x hy hx
  rw [hm.values k P hP y x hy hx, hm'.values k P' hP' y x hy hx, f1, hn]
  have hpm := hperm.filterMap fun s => s.sample k (centerCoord g.t y x)
  have hw : wmean ((t0 :: ts).filterMap fun s => s.sample k (centerCoord g.t y x)) =
      wmean ((s0 :: ss).filterMap fun s => s.sample k (centerCoord g.t y x)) := by
    unfold wmean
    rw [(hpm.map _).sum_eq, (hpm.map Prod.fst).sum_eq]
  rw [hw]
  by_cases h : ((s0 :: ss).filterMap fun s => s.sample k (centerCoord g.t y x)) = []
  · rw [if_pos h, if_pos]
    rw [h] at hpm
    exact hpm.eq_nil
  · rw [if_neg h, if_neg]
    intro h'
    rw [h'] at hpm
    exact h hpm.symm.eq_nil

/-- C14: merging one grid alone gives back the grid: its transform, its size and every pixel holding
data; pixels without data in some band become nodata in all bands. -/
theorem C14_single (garb : ℚ) (s : Src) (hdx : 0 < s.g.t.dx) (hdy : 0 < s.g.t.dy) (nb : Nat)
    (hok : s.Ok s.g.t.x0 s.g.t.y0 s.g.t.dx s.g.t.dy nb) :
    ∃ g' Ps', merge garb [s.g] (some [s.w]) = .ok g' ∧ g'.t = s.g.t ∧ g'.nodata = s.g.nodata ∧
      g'.Holds s.H s.W Ps' ∧ Ps'.length = s.Ps.length ∧
      ∀ (k : Nat) P P', s.Ps[k]? = some P → Ps'[k]? = some P' → ∀ y x : Nat, y < s.H → x < s.W →
        P' y x = if ∀ Q ∈ s.Ps, Q y x ≠ s.g.nodata then P y x else s.g.nodata := by
  obtain ⟨g', H', W', Ps', e, hm⟩ := C14_merge_partial garb _ _ _ _ hdx hdy nb s [] (by simpa using hok)
  obtain ⟨d1, d2, d3, d4⟩ := hm.spacing s (by simp)
  have v1 := hm.tight_left
  have v2 := hm.tight_bottom
  have v3 := hm.tight_right
  have v4 := hm.tight_top
  simp only [List.mem_singleton, exists_eq_left] at v1 v2 v3 v4
  have ht : g'.t = s.g.t := by
    cases hg : g'.t with
    | mk a b c d e f => rw [hg] at v1 v2 d1 d2 d3 d4; simp only at *; rw [v1, v2, d1, d2, d3, d4]
  have hW : W' = s.W := by
    have : (W' : ℚ) * s.g.t.dx = s.W * s.g.t.dx := by rw [d1] at v3; linarith
    exact_mod_cast mul_right_cancel₀ hdx.ne' this
  have hH : H' = s.H := by
    have : (H' : ℚ) * s.g.t.dy = s.H * s.g.t.dy := by rw [d2] at v4; linarith
    exact_mod_cast mul_right_cancel₀ hdy.ne' this
  subst hW hH
  refine ⟨g', Ps', e, ht, hm.nodata, hm.holds, by rw [hm.bands, hok.bands], ?_⟩
  intro k P P' hP hP' y x hy hx
  rw [hm.values k P' hP' y x hy hx, ht]
  have hc := cellAt_eq (t := s.g.t) (X := s.g.t.x0) (Y := s.g.t.y0) (p := 0) (q := 0) hdx.ne' hdy.ne' hok.hsx hok.hsy
    (by simp) (by simp) s.H s.W y x
  have hs : s.sample k (centerCoord s.g.t y x) = if ∀ Q ∈ s.Ps, Q y x ≠ s.g.nodata then some (s.w, P y x) else none := by
    unfold Src.sample
    rw [show (centerCoord s.g.t y x) = centerCoord { s.g.t with x0 := s.g.t.x0, y0 := s.g.t.y0 } y x from rfl, hc,
      if_pos (by omega)]
    simp only [Option.bind_some, sub_zero, Int.toNat_natCast, hP, Option.map_some, List.all_eq_true, decide_eq_true_eq]
  simp only [List.filterMap_cons, List.filterMap_nil, hs]
  by_cases hv : ∀ Q ∈ s.Ps, Q y x ≠ s.g.nodata
  · rw [if_pos hv]
    simp only [if_pos hv]
    have := hok.wpos.ne'
    simp only [reduceCtorEq, if_false, wmean, List.map_cons, List.map_nil, List.sum_cons, List.sum_nil, add_zero]
    field_simp
  · rw [if_neg hv]
    simp only [if_neg hv, if_true]

/-- C14 is violated band by band: a pixel holding data in one band is lost when another band has no data
there, even when a grid is merged alone. -/
theorem C14_violated_band_masks (garb : ℚ) (s : Src) (hdx : 0 < s.g.t.dx) (hdy : 0 < s.g.t.dy) (nb : Nat)
    (hok : s.Ok s.g.t.x0 s.g.t.y0 s.g.t.dx s.g.t.dy nb) (k l : Nat) (P Q : Int → Int → ℚ) (hP : s.Ps[k]? = some P)
    (hQ : s.Ps[l]? = some Q) (y x : Nat) (hy : y < s.H) (hx : x < s.W) (h1 : P y x ≠ s.g.nodata) (h2 : Q y x = s.g.nodata) :
    ∃ g' Ps' P', merge garb [s.g] (some [s.w]) = .ok g' ∧ g'.Holds s.H s.W Ps' ∧ Ps'[k]? = some P' ∧
      P' y x = s.g.nodata ∧ P' y x ≠ P y x := by
  obtain ⟨g', Ps', e, -, -, h, hl, hv⟩ := C14_single garb s hdx hdy nb hok
  have hk : k < Ps'.length := by rw [hl]; exact (List.getElem?_eq_some_iff.1 hP).1
  have := hv k P Ps'[k] hP (List.getElem?_eq_getElem hk) y x hy hx
  rw [if_neg (fun hc => hc Q (List.mem_of_getElem? hQ) h2)] at this
  exact ⟨g', Ps', Ps'[k], e, h, List.getElem?_eq_getElem hk, this, by rw [this]; exact h1.symm⟩

/-- C14 is violated for negative row spacing (images stored top row first): merging any such grids, even
one alone, raises. -/
theorem C14_violated_negative_spacing (garb dx dy : ℚ) (hdx : dx ≠ 0) (hdy : dy < 0) (g0 : RGrid ℚ)
    (rest : List (RGrid ℚ)) (ht : ∀ g ∈ g0 :: rest, g.t.dx = dx ∧ g.t.dy = dy ∧ g.t.sx = 0 ∧ g.t.sy = 0)
    (H W : Nat) (Ps : List (Int → Int → ℚ)) (hg : g0.Holds H W Ps) (hH : 0 < H) (weights : Option (List ℚ)) :
    merge garb (g0 :: rest) weights = .error .valueError := by
  obtain ⟨t1, t2, t3, t4⟩ := ht g0 (by simp)
  unfold merge
  simp only
  rw [if_neg (by
    rw [not_not, List.all_eq_true]
    intro g hg
    obtain ⟨u1, u2, u3, u4⟩ := ht g (by simp [hg])
    simp only [decide_eq_true_eq]
    rw [t1, t2, t3, t4]
    exact ⟨u1, u2, u3, u4⟩), if_neg (by rw [t1, t2]; exact not_or.2 ⟨hdx, hdy.ne⟩)]
  by_cases h1 : rest.all (fun g => offsetOk g0.t g.t) = true
  · rw [if_neg (by simpa using h1)]
    by_cases h2 : rest.all (fun g => g.bands.length == g0.bands.length) = true
    · rw [if_neg (by simpa using h2)]
      rw [if_pos]
      right
      obtain ⟨u0, -⟩ := unionExtent_spec rest g0
      simp only at u0
      have := u0 g0 (by simp)
      obtain ⟨-, -, a, b⟩ := this
      rw [hg.size] at a b
      simp only [extent, Bool.false_eq_true, if_false, add_zero, t4] at a b
      rw [farBound_aligned (Or.inl rfl), t2] at a b
      have hHq : (1 : ℚ) ≤ H := by exact_mod_cast hH
      have a' := a.trans (min_le_right _ _)
      have b' := (le_max_left _ _).trans b
      rw [t2]
      have : (((unionExtent g0 rest).2.2.2 - (unionExtent g0 rest).2.2.1) / dy) ≤ ((-1 : Int) : ℚ) := by
        rw [div_le_iff_of_neg hdy]
        push_cast
        nlinarith
      have := rint_mono this
      rw [rint_int] at this
      omega
    · rw [if_pos (by simpa using h2)]
  · rw [if_pos (by simpa using h1)]

/-- Non-vacuity of C14: any non-empty list of arrays placed on a common lattice, with any positive
weights, meets the hypotheses. -/
theorem src_exists (garb X Y dx dy nd : ℚ) (p q : Int) (H W nb : Nat) (hb : 0 < nb) (V : Nat → Nat → Nat → ℚ) (w : ℚ)
    (hw : 0 < w) : ∃ s : Src, s.Ok X Y dx dy nb ∧ s.H = H ∧ s.W = W ∧ s.g.nodata = nd ∧ s.g.t.x0 = X + p * dx ∧
      ∀ (k : Nat) P, s.Ps[k]? = some P → ∀ y x : Nat, y < H → x < W → P y x = V y x k := by
  obtain ⟨g, Ps, e, h1, h2, h3, h4, h5⟩ := fromValues_spec (0 : ℚ) garb ⟨X + p * dx, Y + q * dy, dx, dy, 0, 0⟩ nd
    ⟨[H, W, nb], fun ix => match ix with
      | [r, c, k] => some (V r c k)
      | _ => none⟩ H W nb hb rfl V (by intro y x k _ _ _; rfl)
  exact ⟨⟨g, H, W, Ps, w⟩, ⟨h3, h4, hw, by rw [h1], by rw [h1], by rw [h1], by rw [h1], ⟨p, by rw [h1]⟩, ⟨q, by rw [h1]⟩⟩,
    rfl, rfl, h2, by rw [h1], h5⟩

/-- Two overlapping `1 × 2` grids with weights 1 and 3. -/
def exMerge : Except Err (RGrid ℚ) :=
  match fromValues (0 : ℚ) 0 ⟨0, 0, 1, 1, 0, 0⟩ (-9) ⟨[1, 2], fun ix => some (if ix = [0, 0] then 10 else 20)⟩,
      fromValues (0 : ℚ) 0 ⟨1, 0, 1, 1, 0, 0⟩ (-9) ⟨[1, 2], fun ix => some (if ix = [0, 0] then 40 else -9)⟩ with
  | .ok a, .ok b => merge 0 [a, b] (some [1, 3])
  | _, _ => .error .other

/-- The result, read back: 10, then (20 + 3·40)/4 = 35, then nodata. -/
example : (exMerge.toOption.map fun g => (g.t.x0, g.size, g.peek 0 0, g.peek 0 1, g.peek 0 2)) =
    some (0, (1, 3), some 10, some 35, some (-9)) := by decide +kernel

/-! ### C15 -/

/-- Spec: the values of those points that belong to cell `(y, x)`. -/
def valuesIn (l : List ((Int × Int) × ℚ)) (y x : Nat) : List ℚ :=
  (l.filter fun p => decide (p.1 = ((y : Int), (x : Int)))).map Prod.snd

/-- Spec: the mean of a list, undefined for the empty list. -/
def mean (l : List ℚ) : Option ℚ := if l = [] then none else some (l.sum / l.length)

theorem fill_fold (l : List ((Int × Int) × ℚ)) (st : (Nat → Nat → ℚ) × (Nat → Nat → Nat)) (y x : Nat) :
    (l.foldl fillStep st).1 y x = st.1 y x + (valuesIn l y x).sum ∧
    (l.foldl fillStep st).2 y x = st.2 y x + (valuesIn l y x).length := by
  induction l generalizing st with
  | nil => simp [valuesIn]
  | cons p l ih =>
    rw [List.foldl_cons]
    obtain ⟨h1, h2⟩ := ih (fillStep st p)
    rw [h1, h2]
    obtain ⟨⟨i, j⟩, z⟩ := p
    by_cases hc : (y : Int) = i ∧ (x : Int) = j
    · obtain ⟨rfl, rfl⟩ := hc
      simp only [fillStep, and_self, if_true, valuesIn, List.filter_cons, decide_true, List.map_cons, List.sum_cons,
        List.length_cons]
      constructor
      · ring
      · omega
    · have hc' : ¬ ((i, j) : Int × Int) = ((y : Int), (x : Int)) := by
        rw [Prod.mk.injEq]; rintro ⟨rfl, rfl⟩; exact hc ⟨rfl, rfl⟩
      simp only [fillStep, if_neg hc, valuesIn, List.filter_cons, hc', decide_false, Bool.false_eq_true, if_false,
        and_self]

theorem fillArray_spec (ny nx : Nat) (l : List ((Int × Int) × ℚ)) (y x : Nat) :
    (fillArray ny nx l).get y x = mean (valuesIn l y x) := by
  obtain ⟨h1, h2⟩ := fill_fold l (fun _ _ => 0, fun _ _ => 0) y x
  simp only [zero_add] at h1 h2
  simp only [fillArray, h1, h2, mean]
  by_cases h : valuesIn l y x = []
  · simp [h]
  · rw [if_neg h, if_pos (by simpa using h)]

theorem foldl_max_spec (l : List ℚ) (a : ℚ) :
    a ≤ l.foldl max a ∧ (∀ b ∈ l, b ≤ l.foldl max a) ∧ (l.foldl max a = a ∨ l.foldl max a ∈ l) := by
  induction l generalizing a with
  | nil => simp
  | cons b l ih =>
    obtain ⟨h1, h2, h3⟩ := ih (max a b)
    rw [List.foldl_cons]
    refine ⟨(le_max_left _ _).trans h1, ?_, ?_⟩
    · intro c hc
      rcases List.mem_cons.1 hc with rfl | hc
      · exact (le_max_right _ _).trans h1
      · exact h2 c hc
    · rcases h3 with h3 | h3
      · rw [h3]
        rcases max_choice a b with h | h
        · exact Or.inl h
        · right; rw [h]; simp
      · right; simp [h3]

/-- C15, for positive spacing, no skew and points not before the grid's origin: gridding succeeds; the
grid keeps the transform and is just large enough to hold all points; every point is assigned to one
cell containing it; and every cell holds the mean of the values of its points, or nodata (NaN, `none`)
when it has none. -/
theorem C15_gridpoints_partial (garb : Option ℚ) (T : Xform) (hdx : 0 < T.dx) (hdy : 0 < T.dy) (hsx : T.sx = 0)
    (hsy : T.sy = 0) (pts : List (ℚ × ℚ × ℚ)) (hne : pts ≠ [])
    (hin : ∀ p ∈ pts, T.x0 ≤ p.1 ∧ T.y0 ≤ p.2.1) :
    ∃ (g : RGrid (Option ℚ)) (H W : Nat) (P : Int → Int → Option ℚ) (cells : List (Int × Int)),
      gridpoints garb T pts = some (.ok g) ∧ g.t = T ∧ g.nodata = none ∧ g.Holds H W [P] ∧
      (∀ p ∈ pts, p.1 < T.x0 + W * T.dx ∧ p.2.1 < T.y0 + H * T.dy) ∧
      (∃ p ∈ pts, T.x0 + (W - 1) * T.dx ≤ p.1) ∧ (∃ p ∈ pts, T.y0 + (H - 1) * T.dy ≤ p.2.1) ∧
      cells.length = pts.length ∧
      (∀ (t : Nat) p c, pts[t]? = some p → cells[t]? = some c →
        T.InClosedCell c.1 c.2 (p.1, p.2.1) ∧ 0 ≤ c.1 ∧ c.1 < H ∧ 0 ≤ c.2 ∧ c.2 < W) ∧
      ∀ y x : Nat, y < H → x < W → P y x = mean (valuesIn (cells.zip (pts.map fun p => p.2.2)) y x) := by
  have hT : T.Regular := by
    refine ⟨?_, hdy.ne'⟩
    rw [hsx, zero_mul, sub_zero]
    exact (mul_pos hdx hdy).ne'
  cases pts with
  | nil => exact absurd rfl hne
  | cons p ps =>
  obtain ⟨y1, y2, y3⟩ := foldl_max_spec (ps.map fun q => q.2.1) p.2.1
  obtain ⟨x1, x2, x3⟩ := foldl_max_spec (ps.map fun q => q.1) p.1
  generalize hY : (ps.map fun q => q.2.1).foldl max p.2.1 = Ym at y1 y2 y3
  generalize hX : (ps.map fun q => q.1).foldl max p.1 = Xm at x1 x2 x3
  have yle : ∀ q ∈ p :: ps, q.2.1 ≤ Ym := by
    intro q hq
    rcases List.mem_cons.1 hq with rfl | hq
    · exact y1
    · exact y2 _ (List.mem_map_of_mem (f := fun q : ℚ × ℚ × ℚ => q.2.1) hq)
  have xle : ∀ q ∈ p :: ps, q.1 ≤ Xm := by
    intro q hq
    rcases List.mem_cons.1 hq with rfl | hq
    · exact x1
    · exact x2 _ (List.mem_map_of_mem (f := fun q : ℚ × ℚ × ℚ => q.1) hq)
  have yex : ∃ q ∈ p :: ps, Ym = q.2.1 := by
    rcases y3 with h | h
    · exact ⟨p, by simp, h⟩
    · obtain ⟨q, hq, h⟩ := List.mem_map.1 h
      exact ⟨q, by simp [hq], h.symm⟩
  have xex : ∃ q ∈ p :: ps, Xm = q.1 := by
    rcases x3 with h | h
    · exact ⟨p, by simp, h⟩
    · obtain ⟨q, hq, h⟩ := List.mem_map.1 h
      exact ⟨q, by simp [hq], h.symm⟩
  have y0 : 0 ≤ (Ym - T.y0) / T.dy := by
    apply div_nonneg _ hdy.le
    have := (hin p (by simp)).2
    have := yle p (by simp)
    linarith
  have x0 : 0 ≤ (Xm - T.x0) / T.dx := by
    apply div_nonneg _ hdx.le
    have := (hin p (by simp)).1
    have := xle p (by simp)
    linarith
  have fy0 := Int.floor_nonneg.2 y0
  have fx0 := Int.floor_nonneg.2 x0
  have fyl := Int.floor_le ((Ym - T.y0) / T.dy)
  have fyu := Int.lt_floor_add_one ((Ym - T.y0) / T.dy)
  have fxl := Int.floor_le ((Xm - T.x0) / T.dx)
  have fxu := Int.lt_floor_add_one ((Xm - T.x0) / T.dx)
  obtain ⟨m, hm⟩ := Int.eq_ofNat_of_zero_le fy0
  obtain ⟨n, hn⟩ := Int.eq_ofNat_of_zero_le fx0
  rw [hm] at fyl fyu
  rw [hn] at fxl fxu
  push_cast at fyl fyu fxl fxu
  rw [le_div_iff₀ hdy] at fyl
  rw [div_lt_iff₀ hdy] at fyu
  rw [le_div_iff₀ hdx] at fxl
  rw [div_lt_iff₀ hdx] at fxu
  have e1 : (⌊(Ym - T.y0) / T.dy⌋ + 1).toNat = m + 1 := by rw [hm]; rfl
  have e2 : (⌊(Xm - T.x0) / T.dx⌋ + 1).toNat = n + 1 := by rw [hn]; rfl
  have hbound : ∀ q ∈ p :: ps, q.1 < T.x0 + ((n + 1 : Nat) : ℚ) * T.dx ∧ q.2.1 < T.y0 + ((m + 1 : Nat) : ℚ) * T.dy := by
    intro q hq
    have := xle q hq
    have := yle q hq
    push_cast
    constructor <;> linarith
  -- every point is on the grid
  have hidx : ∀ q ∈ p :: ps, ∃ c, indices T (m + 1) (n + 1) q.1 q.2.1 = some (.ok c) := by
    intro q hq
    obtain ⟨a1, a2⟩ := hin q hq
    obtain ⟨b1, b2⟩ := hbound q hq
    have hq' : (q.1, q.2.1) = T.at ((q.2.1 - T.y0) / T.dy) ((q.1 - T.x0) / T.dx) := by
      unfold Xform.at
      rw [hsx, hsy]
      have := hdx.ne'
      have := hdy.ne'
      ext
      · simp only; field_simp; ring
      · simp only; field_simp; ring
    have hr := indicesRaw_at hT ((q.2.1 - T.y0) / T.dy) ((q.1 - T.x0) / T.dx)
    rw [← hq'] at hr
    have key : ∀ (u : ℚ) (k : Nat), 0 ≤ u → u < ((k + 1 : Nat) : ℚ) →
        0 ≤ rint (u - 1 / 2) ∧ rint (u - 1 / 2) ≤ ((k + 1 : Nat) : Int) - 1 := by
      intro u k h0 h1
      constructor
      · have : rint (-1 / 2) ≤ rint (u - 1 / 2) := rint_mono (by linarith)
        have e : rint (-1 / 2) = 0 := by decide +kernel
        omega
      · have := (abs_le.1 (rint_near (u - 1 / 2))).1
        have : ((rint (u - 1 / 2) : Int) : ℚ) < (((k + 1 : Nat) : Int) : ℚ) := by push_cast at h1 ⊢; linarith
        have : rint (u - 1 / 2) < ((k + 1 : Nat) : Int) := by exact_mod_cast this
        omega
    obtain ⟨k1, k2⟩ := key ((q.2.1 - T.y0) / T.dy) m (div_nonneg (by linarith) hdy.le) (by
      rw [div_lt_iff₀ hdy]; linarith)
    obtain ⟨k3, k4⟩ := key ((q.1 - T.x0) / T.dx) n (div_nonneg (by linarith) hdx.le) (by
      rw [div_lt_iff₀ hdx]; linarith)
    refine ⟨(rint ((q.2.1 - T.y0) / T.dy - 1 / 2), rint ((q.1 - T.x0) / T.dx - 1 / 2)), ?_⟩
    unfold indices
    simp only at hr
    rw [hr, Option.map_some, if_neg (by simp only; omega)]
  obtain ⟨cells, c1, c2, c3⟩ : ∃ ix, indicesVec T (m + 1) (n + 1) ((p :: ps).map fun q => (q.1, q.2.1)) = some (.ok ix) ∧
      ix.length = (p :: ps).length ∧ ∀ (k : Nat) q c, (p :: ps)[k]? = some q → ix[k]? = some c →
        indices T (m + 1) (n + 1) q.1 q.2.1 = some (.ok c) := by
    rcases C10_vector_agrees T hT (m + 1) (n + 1) ((p :: ps).map fun q => (q.1, q.2.1)) (by simp) with h | h
    · obtain ⟨ix, h1, h2, h3⟩ := h
      refine ⟨ix, h1, by simpa using h2, ?_⟩
      intro k q c hq hc
      exact h3 k (q.1, q.2.1) c (by rw [List.getElem?_map, hq]; rfl) hc
    · exfalso
      obtain ⟨-, r, hr, he⟩ := h
      obtain ⟨q, hq, rfl⟩ := List.mem_map.1 hr
      obtain ⟨c, hc⟩ := hidx q hq
      rw [hc] at he
      cases he
  -- the array
  obtain ⟨b, P0, hb, hreach, -⟩ := mkBand_spec (some (0 : ℚ)) (⟨m + 1, n + 1, fun _ _ => garb⟩ : Arr (Option ℚ))
  have hB : Bands (m + 1) (n + 1) [b] [P0] := ⟨rfl, by
    intro k b' P' h1 h2
    cases k with
    | zero => simp at h1 h2; subst h1 h2; exact hreach
    | succ k => simp at h1⟩
  have hset := setitem_spec hB (by simp) (ky := .slice .all) (kx := .slice .all) (kb := some (.int 0))
    (bl := [(0 : Int)]) (positions_all (m + 1)) (positions_all (n + 1)) (by simp [bandPositions, Spec.positions])
    (not_inverted_all _) (not_inverted_all _)
    (arrValue (fillArray (m + 1) (n + 1) (cells.zip ((p :: ps).map fun q => q.2.2))))
    (resolve_unit (by rintro s ⟨⟩; rfl)) (resolve_unit (by rintro s ⟨⟩; rfl))
  have hbr : broadcast (arrValue (fillArray (m + 1) (n + 1) (cells.zip ((p :: ps).map fun q => q.2.2))))
      ((List.range (m + 1)).map fun (k : Nat) => (k : Int)).length
      ((List.range (n + 1)).map fun (k : Nat) => (k : Int)).length [(0 : Int)].length =
      some fun r c _ => (fillArray (m + 1) (n + 1) (cells.zip ((p :: ps).map fun q => q.2.2))).get
        (if m + 1 = 1 then 0 else r) (if n + 1 = 1 then 0 else c) := by
    simp only [broadcast, arrValue, fillArray, List.length_map, List.length_range, true_or, and_self, if_true]
  rw [hbr] at hset
  obtain ⟨bs', Ps', s1, s2, s3, s4, -⟩ := hset
  obtain ⟨P, rfl⟩ : ∃ P, Ps' = [P] := by
    have : Ps'.length = 1 := by rw [← s3.1, s2]; rfl
    exact List.length_eq_one_iff.1 this
  refine ⟨⟨T, bs', none⟩, m + 1, n + 1, P, cells, ?_, rfl, rfl, ⟨s3, ?_⟩, hbound, ?_, ?_, c2, ?_, ?_⟩
  · unfold gridpoints
    simp only
    rw [if_neg (not_or.2 ⟨hdx.ne', hdy.ne'⟩), hX, hY, e1, e2, if_neg (by omega), c1]
    simp only
    rw [hb]
    simp only
    rw [s1]
  · intro h
    simp only at h
    rw [h] at s2
    simp at s2
  · obtain ⟨q, hq, rfl⟩ := xex
    exact ⟨q, hq, by push_cast; linarith⟩
  · obtain ⟨q, hq, rfl⟩ := yex
    exact ⟨q, hq, by push_cast; linarith⟩
  · intro t q c hq hc
    obtain ⟨h1, h2, h3, h4, h5⟩ := C10_returned_cell_contains T (m + 1) (n + 1) q.1 q.2.1 c.1 c.2 (c3 t q c hq hc)
    exact ⟨h5, h1, h2, h3, h4⟩
  · intro y x hy hx
    have := s4 y x 0 y x 0 P (by simp [hy]) (by simp [hx]) rfl rfl
    rw [this, ← fillArray_spec (m + 1) (n + 1)]
    have f1 : (if m + 1 = 1 then 0 else y) = y := by split_ifs <;> omega
    have f2 : (if n + 1 = 1 then 0 else x) = x := by split_ifs <;> omega
    simp only [f1, f2]

/-- C15: nothing is lost or counted twice.  When all points are on the grid, the sum over all cells of
(number of points × cell value) is the sum of the points' values. -/
theorem C15_conservation (H W : Nat) (l : List ((Int × Int) × ℚ))
    (hl : ∀ p ∈ l, 0 ≤ p.1.1 ∧ p.1.1 < H ∧ 0 ≤ p.1.2 ∧ p.1.2 < W) :
    ∑ y ∈ Finset.range H, ∑ x ∈ Finset.range W, ((valuesIn l y x).length : ℚ) * (mean (valuesIn l y x)).getD 0 =
      (l.map Prod.snd).sum := by
  have h1 : ∀ y x, ((valuesIn l y x).length : ℚ) * (mean (valuesIn l y x)).getD 0 = (valuesIn l y x).sum := by
    intro y x
    unfold mean
    by_cases h : valuesIn l y x = []
    · simp [h]
    · rw [if_neg h, Option.getD_some]
      have : ((valuesIn l y x).length : ℚ) ≠ 0 := by simpa using h
      field_simp
  simp only [h1]
  induction l with
  | nil => simp [valuesIn]
  | cons p l ih =>
    have h2 : ∀ y x, (valuesIn (p :: l) y x).sum =
        (if (p.1.1.toNat = y ∧ p.1.2.toNat = x) then p.2 else 0) + (valuesIn l y x).sum := by
      intro y x
      obtain ⟨a1, a2, a3, a4⟩ := hl p (by simp)
      unfold valuesIn
      rw [List.filter_cons]
      by_cases hc : p.1.1.toNat = y ∧ p.1.2.toNat = x
      · have : p.1 = ((y : Int), (x : Int)) := by ext <;> simp only <;> omega
        simp [this]
      · have : ¬ p.1 = ((y : Int), (x : Int)) := by
          intro h; rw [h] at hc; simp at hc
        simp [this, hc]
    simp only [h2, Finset.sum_add_distrib, List.map_cons, List.sum_cons]
    rw [ih (fun q hq => hl q (by simp [hq])) (by
      intro y x
      unfold mean
      by_cases h : valuesIn l y x = []
      · simp [h]
      · rw [if_neg h, Option.getD_some]
        have : ((valuesIn l y x).length : ℚ) ≠ 0 := by simpa using h
        field_simp)]
    congr 1
    obtain ⟨a1, a2, a3, a4⟩ := hl p (by simp)
    rw [Finset.sum_eq_single p.1.1.toNat, Finset.sum_eq_single p.1.2.toNat]
    · simp
    · intro x _ hx; rw [if_neg (by omega)]
    · intro h; exact absurd (Finset.mem_range.2 (by omega)) h
    · intro y _ hy
      apply Finset.sum_eq_zero
      intro x _
      rw [if_neg (by omega)]
    · intro h; exact absurd (Finset.mem_range.2 (by omega)) h

/-- Non-vacuity of C15: two points in one cell, one in another, nothing in a third. -/
example : ((gridpoints none ⟨0, 0, 1, 1, 0, 0⟩ [(1 / 4, 1 / 2, 3), (3 / 4, 1 / 4, 5), (5 / 2, 1 / 2, 7)]).bind
    fun r => r.toOption.map fun g => (g.size, g.peek 0 0, g.peek 0 1, g.peek 0 2)) =
    some ((1, 3), some (some 4), some none, some (some 7)) := by decide +kernel

/-- What a call to `gridpoints` raised. -/
def raised {β : Type _} : Option (Except Err β) → Option Err
  | some (.error e) => some e
  | _ => none

/-- C15 is violated for negative row spacing: the number of rows is computed from the largest `y`, which
is the first row, so points in later rows raise. -/
theorem C15_violated_negative_spacing :
    raised (gridpoints none ⟨0, 10, 1, -1, 0, 0⟩ [(1 / 2, 19 / 2, 1), (1 / 2, 11 / 2, 2)]) = some .indexError := by
  decide +kernel

/-- C15: points before the origin are refused.  If some point lies before the first row or column, an exception is raised instead of
leaving the point out or putting it elsewhere: `ValueError` if all points lie a whole cell or more before the first row or column,
`IndexError` otherwise. -/
theorem C15_before_origin (garb : Option ℚ) (T : Xform) (hdx : 0 < T.dx) (hdy : 0 < T.dy) (hsx : T.sx = 0) (hsy : T.sy = 0)
    (pts : List (ℚ × ℚ × ℚ)) (hout : ∃ p ∈ pts, p.1 < T.x0 ∨ p.2.1 < T.y0) :
    gridpoints garb T pts = some (.error (if (∀ p ∈ pts, p.1 < T.x0 - T.dx) ∨ (∀ p ∈ pts, p.2.1 < T.y0 - T.dy) then
      .valueError else .indexError)) := by
  have hT : T.Regular := by
    refine ⟨?_, hdy.ne'⟩
    rw [hsx, zero_mul, sub_zero]
    exact (mul_pos hdx hdy).ne'
  cases pts with
  | nil => obtain ⟨_, h, _⟩ := hout; simp at h
  | cons p ps =>
  obtain ⟨y1, y2, y3⟩ := foldl_max_spec (ps.map fun q => q.2.1) p.2.1
  obtain ⟨x1, x2, x3⟩ := foldl_max_spec (ps.map fun q => q.1) p.1
  generalize hY : (ps.map fun q => q.2.1).foldl max p.2.1 = Ym at y1 y2 y3
  generalize hX : (ps.map fun q => q.1).foldl max p.1 = Xm at x1 x2 x3
  have ylt : ∀ z : ℚ, (∀ q ∈ p :: ps, q.2.1 < z) ↔ Ym < z := by
    intro z
    constructor
    · intro h
      rcases y3 with e | e
      · rw [e]; exact h p (by simp)
      · obtain ⟨q, hq, e⟩ := List.mem_map.1 e
        rw [← e]; exact h q (by simp [hq])
    · intro h q hq
      rcases List.mem_cons.1 hq with rfl | hq
      · exact lt_of_le_of_lt y1 h
      · exact lt_of_le_of_lt (y2 _ (List.mem_map_of_mem (f := fun q : ℚ × ℚ × ℚ => q.2.1) hq)) h
  have xlt : ∀ z : ℚ, (∀ q ∈ p :: ps, q.1 < z) ↔ Xm < z := by
    intro z
    constructor
    · intro h
      rcases x3 with e | e
      · rw [e]; exact h p (by simp)
      · obtain ⟨q, hq, e⟩ := List.mem_map.1 e
        rw [← e]; exact h q (by simp [hq])
    · intro h q hq
      rcases List.mem_cons.1 hq with rfl | hq
      · exact lt_of_le_of_lt x1 h
      · exact lt_of_le_of_lt (x2 _ (List.mem_map_of_mem (f := fun q : ℚ × ℚ × ℚ => q.1) hq)) h
  have neg : ∀ z o d : ℚ, 0 < d → (⌊(z - o) / d⌋ + 1 < 0 ↔ z < o - d) := by
    intro z o d hd
    have : ⌊(z - o) / d⌋ < -1 ↔ (z - o) / d < ((-1 : Int) : ℚ) := Int.floor_lt
    rw [div_lt_iff₀ hd] at this
    constructor
    · intro h
      have := this.1 (by omega)
      push_cast at this
      linarith
    · intro h
      have := this.2 (by push_cast; linarith)
      omega
  unfold gridpoints
  simp only
  rw [if_neg (not_or.2 ⟨hdx.ne', hdy.ne'⟩), hX, hY]
  simp only [ylt, xlt]
  by_cases hneg : Xm < T.x0 - T.dx ∨ Ym < T.y0 - T.dy
  · rw [if_pos hneg, if_pos (by
      rcases hneg with h | h
      · exact Or.inr ((neg _ _ _ hdx).2 h)
      · exact Or.inl ((neg _ _ _ hdy).2 h))]
  · rw [if_neg hneg, if_neg (by
      rintro (h | h)
      · exact hneg (Or.inr ((neg _ _ _ hdy).1 h))
      · exact hneg (Or.inl ((neg _ _ _ hdx).1 h)))]
    obtain ⟨q, hq, hq0⟩ := hout
    rcases C10_vector_agrees T hT (⌊(Ym - T.y0) / T.dy⌋ + 1).toNat (⌊(Xm - T.x0) / T.dx⌋ + 1).toNat
      ((p :: ps).map fun q => (q.1, q.2.1)) (by simp) with h | h
    · exfalso
      obtain ⟨ix, -, h2, h3⟩ := h
      obtain ⟨k, hk, e⟩ := List.getElem_of_mem hq
      have hk' : k < ix.length := by rw [h2]; simpa using hk
      have := C10_returned_cell_contains T _ _ q.1 q.2.1 _ _ (h3 k (q.1, q.2.1) (ix[k]) (by
        rw [List.getElem?_map, List.getElem?_eq_getElem hk, e]; rfl) (List.getElem?_eq_getElem hk'))
      obtain ⟨a1, -, a3, -, u, v, b1, b2, b3, b4, b5⟩ := this
      have a1' : (0 : ℚ) ≤ ((ix[k]).1 : ℚ) := by exact_mod_cast a1
      have a3' : (0 : ℚ) ≤ ((ix[k]).2 : ℚ) := by exact_mod_cast a3
      unfold Xform.at at b5
      rw [hsx, hsy] at b5
      obtain ⟨c1, c2⟩ := Prod.mk.inj b5
      have hu := mul_nonneg (le_trans a1' b1) hdy.le
      have hv := mul_nonneg (le_trans a3' b3) hdx.le
      rcases hq0 with h | h
      · linarith
      · linarith
    · rw [h.1]

/-- Non-vacuity: a point half a cell before the first column beside one in the grid; and two points far below the first row. -/
example : raised (gridpoints none ⟨0, 0, 1, 1, 0, 0⟩ [(1 / 2, 1 / 2, 7), (-1 / 2, 3 / 2, 5)]) = some .indexError ∧
    raised (gridpoints none ⟨0, 0, 1, 1, 0, 0⟩ [(1 / 2, -5, 7), (1 / 2, -3, 5)]) = some .valueError := by decide +kernel

/-- C15 is violated for skewed grids: the number of columns ignores the skew, so a point in the second
column of a higher row, although it is not before the first column, raises. -/
theorem C15_violated_skew :
    raised (gridpoints none ⟨0, 0, 1, 1, -1, 0⟩ [(1 / 4, 1 / 2, 1), (0, 5 / 4, 2)]) = some .indexError ∧
      (⟨0, 0, 1, 1, -1, 0⟩ : Xform).InCell 1 1 (0, 5 / 4) := by
  constructor
  · decide +kernel
  · exact ⟨5 / 4, 5 / 4, by norm_num, by norm_num, by norm_num, by norm_num, by norm_num [Xform.at]⟩

end Karta.Grid
