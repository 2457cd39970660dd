import Verif.Grid.Window
import Verif.Band.IndexerLemmas

/-!
Helper lemmas on grid construction and windows.
-/

namespace Karta.Grid
open Karta Karta.Band Karta.Band.Spec Karta.Band.Indexer Karta.Py

variable {α : Type _}

/-- Spec: the grid has at least one band and its bands hold the images `Ps`, each `H × W`. -/
def RGrid.Holds (g : RGrid α) (H W : Nat) (Ps : List (Int → Int → α)) : Prop :=
  Bands H W g.bands Ps ∧ g.bands ≠ []

theorem RGrid.Holds.size {g : RGrid α} {H W : Nat} {Ps : List (Int → Int → α)} (h : g.Holds H W Ps) :
    g.size = (H, W) := by
  obtain ⟨hB, hne⟩ := h
  unfold RGrid.size
  cases hb : g.bands with
  | nil => exact absurd hb hne
  | cons b bs =>
    obtain ⟨b', P, h1, h2, h3⟩ := hB.at (k := 0) (by rw [hb]; simp)
    rw [hb] at h1
    simp only [List.getElem?_cons_zero, Option.some.injEq] at h1
    subst h1
    obtain ⟨-, e1, e2, -⟩ := h3.sound
    simp [e1, e2]

theorem mkBand_spec (zero : α) (a : Arr α) :
    ∃ b P, mkBand zero a = .ok b ∧ Reach a.ny a.nx b P ∧
      ∀ y x : Nat, y < a.ny → x < a.nx → P y x = a.get y x := by
  obtain ⟨b', e, hr⟩ := (Reach.new (H := a.ny) (W := a.nx) 256 256 (by norm_num) (by norm_num) zero).setblock
    ⟨0, 0, a⟩ ⟨le_refl _, le_refl _, by simp, by simp, by simp, by simp⟩
  refine ⟨b', _, ?_, hr, ?_⟩
  · unfold mkBand; simp only at e; rw [e]
  · intro y x hy hx
    have hc : (⟨0, 0, a⟩ : Write α).Covers (y : Int) (x : Int) := by
      refine ⟨?_, ?_, ?_, ?_⟩ <;> simp <;> omega
    rw [if_pos hc]
    simp [Write.valueAt]

theorem mapM_mkBand (zero : α) (m n p : Nat) (f : Nat → Nat → Nat → α) :
    ∃ bs Ps, (List.range p).mapM (fun k => mkBand zero ⟨m, n, fun r c => f r c k⟩) = .ok bs ∧
      bs.length = p ∧ Bands m n bs Ps ∧
      ∀ (k : Nat) P, Ps[k]? = some P → ∀ y x : Nat, y < m → x < n → P y x = f y x k := by
  have hex := fun k => mkBand_spec zero (⟨m, n, fun r c => f r c k⟩ : Arr α)
  choose fb fP h1 h2 h3 using hex
  obtain ⟨bs, e, l, g⟩ := mapM_ok (fun k => mkBand zero ⟨m, n, fun r c => f r c k⟩) (List.range p)
    (fun k _ => ⟨fb k, h1 k⟩)
  have hg : ∀ k : Nat, k < p → bs[k]? = some (fb k) := by
    intro k hk
    obtain ⟨y, hy, hy2⟩ := g k k (by simp [hk])
    rw [h1 k] at hy2
    cases hy2
    exact hy
  refine ⟨bs, (List.range p).map fP, e, by simpa using l, ⟨by simp [l], ?_⟩, ?_⟩
  · intro k b P hb hP
    have hk : k < p := by
      have : k < bs.length := (List.getElem?_eq_some_iff.1 hb).1
      rw [l] at this; simpa using this
    rw [hg k hk] at hb
    cases hb
    simp only [List.getElem?_map, List.getElem?_range hk, Option.map_some, Option.some.injEq] at hP
    subst hP
    exact h2 k
  · intro k P hP y x hy hx
    have hk : k < p := by
      have := (List.getElem?_eq_some_iff.1 hP).1
      simpa using this
    simp only [List.getElem?_map, List.getElem?_range hk, Option.map_some, Option.some.injEq] at hP
    subst hP
    exact h3 k y x hy hx

theorem fromValues_spec (zero garb : α) (t : Xform) (nd : α) (A : NdArr (Option α)) (m n p : Nat)
    (hp : 0 < p) (hs : A.shape = [m, n, p]) (V : Nat → Nat → Nat → α)
    (hV : ∀ y x k, y < m → x < n → k < p → A.get [y, x, k] = some (V y x k)) :
    ∃ g Ps, fromValues zero garb t nd A = .ok g ∧ g.t = t ∧ g.nodata = nd ∧ g.Holds m n Ps ∧
      Ps.length = p ∧ ∀ (k : Nat) P, Ps[k]? = some P → ∀ y x : Nat, y < m → x < n → P y x = V y x k := by
  obtain ⟨bs, Ps, e, l, hB, hP⟩ := mapM_mkBand zero m n p (fun r c k => (A.get [r, c, k]).getD garb)
  refine ⟨⟨t, bs, nd⟩, Ps, ?_, rfl, rfl, ⟨hB, ?_⟩, by rw [← hB.1, l], ?_⟩
  · unfold fromValues
    rw [hs]
    simp only [e]
  · intro h
    simp only at h
    rw [h] at l; simp at l; omega
  · intro k P hk y x hy hx
    have hkp : k < p := by
      have := (List.getElem?_eq_some_iff.1 hk).1
      rw [← hB.1, l] at this; exact this
    rw [hP k P hk y x hy hx, hV y x k hy hx hkp]
    rfl

theorem slice_positions {n : Nat} {a b : Int} (h0 : 0 ≤ a) (hab : a ≤ b) :
    Spec.positions n (sl a b) = some (range (min a n) (min b n) 1) ∧ ¬ Inverted n (sl a b) := by
  have h : (⟨some a, some b, none⟩ : Slice).indices n = .ok (min a n, min b n, 1) := by
    unfold Slice.indices adjust
    simp only [Option.getD_none, one_ne_zero, if_false]
    have : ¬ (1 : Int) < 0 := by norm_num
    simp only [if_neg this]
    congr 2
    · split_ifs <;> omega
    · congr 1; split_ifs <;> omega
  constructor
  · simp only [Spec.positions, sl, h]
  · simp only [Inverted, sl, h]; omega

theorem range_unit {a b : Int} (hab : a ≤ b) :
    (range a b 1).length = (b - a).toNat ∧ ∀ k : Nat, k < (b - a).toNat → (range a b 1)[k]? = some (a + k) := by
  have e : rangeLen a b 1 = (b - a).toNat := by
    unfold rangeLen
    split_ifs <;> omega
  constructor
  · simp [range, e]
  · intro k hk
    simp [range, e, hk]

/-- Windows: the grid built from `self[i0:i1, j0:j1]` holds the window's pixels. -/
theorem sub_spec {g : RGrid α} {H W : Nat} {Ps : List (Int → Int → α)} (hg : g.Holds H W Ps)
    (zero garb : α) (t : Xform) (i0 i1 j0 j1 : Int)
    (hi0 : 0 ≤ i0) (hi : i0 ≤ i1) (hj0 : 0 ≤ j0) (hj : j0 ≤ j1) :
    ∃ g' Ps', g.sub zero garb t i0 i1 j0 j1 = .ok g' ∧ g'.t = t ∧ g'.nodata = g.nodata ∧
      g'.Holds (min i1 H - min i0 H).toNat (min j1 W - min j0 W).toNat Ps' ∧
      Ps'.length = Ps.length ∧
      ∀ (k : Nat) P P', Ps[k]? = some P → Ps'[k]? = some P' →
        ∀ y x : Nat, (y : Int) < min i1 H - min i0 H → (x : Int) < min j1 W - min j0 W →
          P' y x = P (min i0 H + y) (min j0 W + x) := by
  obtain ⟨hB, hne⟩ := hg
  obtain ⟨py, iy⟩ := slice_positions (n := H) hi0 hi
  obtain ⟨px, ix⟩ := slice_positions (n := W) hj0 hj
  obtain ⟨A, e, hs, hv⟩ := getitem_spec hB hne (kb := none) py px rfl iy ix
  obtain ⟨ly, gy⟩ := range_unit (a := min i0 H) (b := min i1 H) (by omega)
  obtain ⟨lx, gx⟩ := range_unit (a := min j0 W) (b := min j1 W) (by omega)
  simp only [keep, keepB, sl, Key.isInt, ly, lx, Option.map_none, Option.getD_none, Bool.false_eq_true,
    if_false, List.cons_append, List.nil_append, List.length_map, List.length_range] at hs hv
  have hpos : 0 < g.bands.length := List.length_pos_of_ne_nil hne
  have hlen : Ps.length = g.bands.length := hB.1.symm
  obtain ⟨g', Ps', e1, e2, e3, e4, e5, e6⟩ := fromValues_spec zero garb t g.nodata A _ _ _ hpos hs
    (fun y x k => match Ps[k]? with
      | some P => P (min i0 H + y) (min j0 W + x)
      | none => garb)
    (by
      intro y x k hy hx hk
      have hk' : k < Ps.length := by omega
      have := hv y x k _ _ k Ps[k] (gy y hy) (gx x hx) (by simp [hk]) (by simp [hk'])
      rw [this]
      simp [hk'])
  refine ⟨g', Ps', ?_, e2, e3, e4, by omega, ?_⟩
  · unfold RGrid.sub; rw [e]; exact e1
  · intro k P P' hP hP' y x hy hx
    have := e6 k P' hP' y x (by omega) (by omega)
    rw [this, hP]

end Karta.Grid
