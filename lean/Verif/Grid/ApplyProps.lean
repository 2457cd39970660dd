import Verif.Grid.Apply
import Verif.Grid.WindowProps

/-!
# C164: apply changes exactly the cells with data
-/

namespace Karta.Grid
open Karta Karta.Band Karta.Band.Indexer Karta.Band.Spec

variable {α : Type _}

/-! ### Specification -/

/-- `ps` lists, row by row, the cells that hold data. -/
def DataCells (P : Int → Int → α) (nodata : α) (H W : Nat) (ps : List (Nat × Nat)) : Prop :=
  (∀ y x : Nat, (y, x) ∈ ps ↔ y < H ∧ x < W ∧ P y x ≠ nodata) ∧
  ps.Pairwise fun p q => p.1 < q.1 ∨ (p.1 = q.1 ∧ p.2 < q.2)

/-! ### Helpers -/

theorem row_single (m : Nat → Arr Bool) (y : Nat) (l : List Nat) :
    (l.flatMap fun x => ((List.range 1).filter fun k => (m k).get y x).map fun k => (y, x, k)) =
      (l.filter fun x => (m 0).get y x).map fun x => (y, x, 0) := by
  induction l with
  | nil => rfl
  | cons a l ih =>
    rw [List.flatMap_cons, ih, List.filter_cons]
    by_cases h : (m 0).get y a = true
    · simp [h, List.range_succ]
    · simp [h, List.range_succ]

theorem maskIdx3_one (H W : Nat) (m : Nat → Arr Bool) (h1 : (m 0).ny = H) (h2 : (m 0).nx = W) :
    maskIdx3 H W 1 m = (maskIdx (m 0)).map fun p => (p.1, p.2, 0) := by
  unfold maskIdx3 maskIdx
  rw [h1, h2, List.map_flatMap]
  congr 1
  funext y
  rw [row_single, List.map_map]
  rfl

theorem mem_maskIdx3 {H W nb : Nat} {m : Nat → Arr Bool} {y x k : Nat} :
    (y, x, k) ∈ maskIdx3 H W nb m ↔ y < H ∧ x < W ∧ k < nb ∧ (m k).get y x = true := by
  unfold maskIdx3
  simp only [List.mem_flatMap, List.mem_range, List.mem_map, List.mem_filter, Prod.mk.injEq]
  constructor
  · rintro ⟨a, ha, b, hb, c, ⟨hc, hm⟩, rfl, rfl, rfl⟩; exact ⟨ha, hb, hc, hm⟩
  · rintro ⟨ha, hb, hc, hm⟩; exact ⟨y, ha, x, hb, k, ⟨hc, hm⟩, rfl, rfl, rfl⟩

/-- Two bands cannot both have as many masked cells as the whole mask, unless there are none. -/
theorem counts_differ {H W nb : Nat} {m : Nat → Arr Bool} (hm : ∀ k, k < nb → (m k).ny = H ∧ (m k).nx = W) (hnb : 2 ≤ nb)
    {n : Nat} (hn : n = (maskIdx3 H W nb m).length) (hpos : 0 < n) :
    ∃ k, k < nb ∧ (maskIdx (m k)).length ≠ n := by
  by_contra hc
  have hall : ∀ k, k < nb → (maskIdx (m k)).length = n := by
    intro k hk; by_contra h; exact hc ⟨k, hk, h⟩
  have nd : ((maskIdx (m 0)).map (fun p => (p.1, p.2, 0)) ++ (maskIdx (m 1)).map (fun p => (p.1, p.2, 1)) : List (Nat × Nat × Nat)).Nodup := by
    rw [List.nodup_append]
    refine ⟨(maskIdx_nodup _).map ?_, (maskIdx_nodup _).map ?_, ?_⟩
    · rintro ⟨a, b⟩ ⟨c, d⟩ h; simpa using h
    · rintro ⟨a, b⟩ ⟨c, d⟩ h; simpa using h
    · rintro p hp q hq rfl
      obtain ⟨_, _, rfl⟩ := List.mem_map.1 hp
      obtain ⟨_, _, e⟩ := List.mem_map.1 hq
      simp at e
  have sub : ((maskIdx (m 0)).map (fun p => (p.1, p.2, 0)) ++ (maskIdx (m 1)).map (fun p => (p.1, p.2, 1)) : List (Nat × Nat × Nat)) ⊆
      maskIdx3 H W nb m := by
    intro p hp
    rcases List.mem_append.1 hp with h | h
    · obtain ⟨⟨y, x⟩, hq, rfl⟩ := List.mem_map.1 h
      obtain ⟨a, b, c⟩ := mem_maskIdx.1 hq
      exact mem_maskIdx3.2 ⟨by rw [← (hm 0 (by omega)).1]; exact a, by rw [← (hm 0 (by omega)).2]; exact b, by omega, c⟩
    · obtain ⟨⟨y, x⟩, hq, rfl⟩ := List.mem_map.1 h
      obtain ⟨a, b, c⟩ := mem_maskIdx.1 hq
      exact mem_maskIdx3.2 ⟨by rw [← (hm 1 (by omega)).1]; exact a, by rw [← (hm 1 (by omega)).2]; exact b, by omega, c⟩
  have := (List.subperm_of_subset nd sub).length_le
  rw [List.length_append, List.length_map, List.length_map, hall 0 (by omega), hall 1 (by omega)] at this
  omega

/-- A vector that does not fit the mask of the band raises. -/
theorem setMaskBand_misfit {H W : Nat} (garb : α) (nb : Nat) (m : Nat → Arr Bool) (l : List α) (i : Nat) (hi : i < nb)
    (hM : MaskShape H W nb (.three nb m)) (h1 : l.length ≠ 1) (h2 : l.length ≠ (maskIdx (m i)).length)
    {b : CBand α} {P : Int → Int → α} (hr : Reach H W b P) :
    setMaskBand garb (.three nb m) (.vec l) i b = (b, some .valueError) := by
  obtain ⟨m1, m2⟩ := hM.1 i hi
  obtain ⟨-, d1, d2, -⟩ := hr.sound
  obtain ⟨tmp, ht, t1, t2, -⟩ := hr.getblock 0 0 H W (by
    refine ⟨?_, ?_, ?_, ?_, ?_, ?_⟩ <;> omega)
  have hA : maskAssign (tmp.map fun o => o.getD garb) (m i) l = .error .valueError := by
    unfold maskAssign
    have e1 : (m i).ny = H := m1
    have e2 : (m i).nx = W := m2
    rw [if_pos ⟨by rw [e1]; simp only [Arr.map, t1]; omega, by rw [e2]; simp only [Arr.map, t2]; omega⟩]
    cases l with
    | nil => simp only [if_neg h2]
    | cons a l =>
      cases l with
      | nil => exact absurd rfl h1
      | cons c l => simp only [if_neg h2]
  unfold setMaskBand
  simp only [bandMask, if_pos hi, d1, d2, ht, bandVals, hA]

theorem setMask_misfit {H W : Nat} (garb : α) (nb : Nat) (m : Nat → Arr Bool) (l : List α)
    (hM : MaskShape H W nb (.three nb m)) (h1 : l.length ≠ 1) (bands : List (CBand α)) :
    ∀ (Ps : List (Int → Int → α)) (i : Nat), Bands H W bands Ps → i + bands.length = nb →
      (∃ k, i ≤ k ∧ k < nb ∧ (maskIdx (m k)).length ≠ l.length) →
      (setMask garb (.three nb m) (.vec l) i bands).2 = some .valueError := by
  induction bands with
  | nil =>
    rintro Ps i - hn ⟨k, hk1, hk2, -⟩
    simp only [List.length_nil] at hn
    omega
  | cons b bs ih =>
    rintro Ps i hB hn ⟨k, hk1, hk2, hk3⟩
    cases Ps with
    | nil => exact absurd hB.1 (by simp)
    | cons P Ps =>
      have hr : Reach H W b P := hB.2 0 b P rfl rfl
      have hBs : Bands H W bs Ps := ⟨by simpa using hB.1, fun k c Q a b => hB.2 (k + 1) c Q a b⟩
      simp only [List.length_cons] at hn
      by_cases hfit : l.length = (maskIdx (m i)).length
      · obtain ⟨b', P', e, -⟩ := setMaskBand_spec garb (.three nb m) (.vec l) i nb (by omega) hM (Or.inl hfit) hr
        have hki : i + 1 ≤ k := by
          rcases Nat.lt_or_ge i k with h | h
          · exact h
          · have : k = i := by omega
            subst this
            exact absurd hfit.symm hk3
        have := ih Ps (i + 1) hBs (by omega) ⟨k, hki, hk2, hk3⟩
        simp only [setMask, e]
        exact this
      · have e := setMaskBand_misfit garb nb m l i (by omega) hM h1 hfit hr
        simp only [setMask, e]

variable [DecidableEq α]

/-- The two intermediate results of `apply`. -/
theorem apply_parts {g : RGrid α} {H W : Nat} {Ps : List (Int → Int → α)} (hg : g.Holds H W Ps) (garb : α) :
    ∃ (m : Nat → Arr Bool) (vs : List (Option α)),
      (∀ k, k < Ps.length → (m k).ny = H ∧ (m k).nx = W) ∧
      (∀ (y x k : Nat) P, y < H → x < W → Ps[k]? = some P → ((m k).get y x = true ↔ P y x ≠ g.nodata)) ∧
      vs.length = (maskIdx3 H W Ps.length m).length ∧
      (∀ (t y x k : Nat) P, (maskIdx3 H W Ps.length m)[t]? = some (y, x, k) → Ps[k]? = some P → vs[t]? = some (some (P y x))) ∧
      ∀ f, g.applyTo garb f =
        ({ g with bands := (setMask garb (.three Ps.length m) (.vec (f (vs.map fun v => v.getD garb))) 0 g.bands).1 },
          (setMask garb (.three Ps.length m) (.vec (f (vs.map fun v => v.getD garb))) 0 g.bands).2) := by
  obtain ⟨M, e, hs, hv⟩ := dataMaskFull_spec hg garb
  obtain ⟨res, r1, r2, r3⟩ := getMask3_spec hg.1 hg.2 (fun k => ⟨H, W, fun r c => M.get [r, c, k]⟩)
  rw [hg.1.1] at r1 r2 r3
  refine ⟨fun k => ⟨H, W, fun r c => M.get [r, c, k]⟩, res, fun _ _ => ⟨rfl, rfl⟩, ?_, r2, r3, ?_⟩
  · intro y x k P hy hx hP
    have := hv y x k P hy hx hP
    simp [this]
  · intro f
    unfold RGrid.applyTo
    simp only [e, hg.size, hg.1.1, r1]

theorem dataCells_maskIdx {P : Int → Int → α} {nodata : α} {H W : Nat} {m : Arr Bool} (h1 : m.ny = H) (h2 : m.nx = W)
    (h : ∀ y x : Nat, y < H → x < W → (m.get y x = true ↔ P y x ≠ nodata)) {ps : List (Nat × Nat)} (hps : DataCells P nodata H W ps) :
    ps = maskIdx m := by
  refine rowMajor_unique (m := m) ⟨?_, hps.2⟩ (maskIdx_rowMajor m)
  intro y x
  rw [hps.1, Masked, h1, h2]
  constructor
  · rintro ⟨a, b, c⟩
    exact ⟨by omega, by omega, by omega, by omega, by simpa using (h y x a b).2 c⟩
  · rintro ⟨-, a, -, b, c⟩
    exact ⟨by omega, by omega, (h y x (by omega) (by omega)).1 (by simpa using c)⟩

/-! ### Theorems -/

/-- C164 for grids of one band: `apply` hands the function the values of the cells with data, row by row, stores its results in these cells
and leaves all others as they are; transform and nodata value are kept.  The grid itself is changed exactly when `inplace` is given. -/
theorem C164_single_partial {g : RGrid α} {H W : Nat} {P : Int → Int → α} (hg : g.Holds H W [P]) (garb : α) (f : List α → List α)
    (hf : ∀ l, (f l).length = l.length) (inplace : Bool) (ps : List (Nat × Nat)) (hps : DataCells P g.nodata H W ps) :
    ∃ g' P', g.apply garb f inplace = (if inplace then g' else g, .ok g') ∧ g'.Holds H W [P'] ∧ g'.t = g.t ∧ g'.nodata = g.nodata ∧
      (∀ (t y x : Nat), ps[t]? = some (y, x) → (f (ps.map fun p => P p.1 p.2))[t]? = some (P' y x)) ∧
      ∀ y x : Nat, y < H → x < W → P y x = g.nodata → P' y x = g.nodata := by
  obtain ⟨m, vs, m1, m2, v1, v2, ha⟩ := apply_parts hg garb
  have m0 := m1 0 (by simp)
  have e3 := maskIdx3_one H W m m0.1 m0.2
  rw [show ([P] : List (Int → Int → α)).length = 1 from rfl] at *
  have hps' : ps = maskIdx (m 0) := dataCells_maskIdx m0.1 m0.2 (fun y x hy hx => m2 y x 0 P hy hx rfl) hps
  have hvs : vs.map (fun v => v.getD garb) = ps.map fun p => P p.1 p.2 := by
    refine List.ext_getElem? fun t => ?_
    rw [List.getElem?_map, List.getElem?_map]
    by_cases ht : t < ps.length
    · have hidx : (maskIdx3 H W 1 m)[t]? = some ((ps[t]).1, (ps[t]).2, 0) := by
        rw [e3, List.getElem?_map, ← hps', List.getElem?_eq_getElem ht]; rfl
      rw [v2 t _ _ 0 P hidx rfl, List.getElem?_eq_getElem ht]
      rfl
    · have hl : vs.length = ps.length := by rw [v1, e3, List.length_map, ← hps']
      rw [List.getElem?_eq_none (by omega), List.getElem?_eq_none (by omega)]
      rfl
  have hM : MaskShape H W 1 (.three 1 m) := ⟨fun k hk => m1 k hk, rfl⟩
  have hlen : (f (vs.map fun v => v.getD garb)).length = (maskIdx (m 0)).length := by rw [hf, hvs, List.length_map, hps']
  obtain ⟨bands', Ps', w1, w2, w3, w4, w5⟩ := setMask_spec garb (.three 1 m) (.vec (f (vs.map fun v => v.getD garb))) 1 hM
    (fun k hk => by
      have : k = 0 := by omega
      subst this
      exact Or.inl hlen) g.bands [P] 0 hg.1 (by rw [hg.1.1]; rfl)
  have hB : bands'.length = 1 := by rw [w2, hg.1.1]; rfl
  obtain ⟨P', rfl⟩ : ∃ P', Ps' = [P'] := by
    have : Ps'.length = 1 := by rw [← w3.1, hB]
    exact List.length_eq_one_iff.1 this
  have ht : g.applyTo garb f = ({ g with bands := bands' }, none) := by rw [ha, w1]
  refine ⟨{ g with bands := bands' }, P', ?_, ⟨w3, ?_⟩, rfl, rfl, ?_, ?_⟩
  · unfold RGrid.apply outcome
    rw [ht]
    cases inplace <;> rfl
  · intro h
    rw [show ({ g with bands := bands' } : RGrid α).bands = bands' from rfl] at h
    rw [h] at hB
    simp at hB
  · intro t y x hpt
    rw [hvs] at hlen w4
    have htl : t < ps.length := by
      by_contra hc; rw [List.getElem?_eq_none (by omega)] at hpt; cases hpt
    have hlen' : (f (ps.map fun p => P p.1 p.2)).length = ps.length := by rw [hlen, hps']
    have hget : (f (ps.map fun p => P p.1 p.2))[t]? = some ((f (ps.map fun p => P p.1 p.2))[t]'(by omega)) :=
      List.getElem?_eq_getElem (by omega)
    rw [hget]
    congr 1
    symm
    refine w4 0 P' rfl t y x _ (by rw [Nat.zero_add, maskAt, ← hps']; exact hpt) ?_
    rw [maskValue]
    by_cases h1 : (f (ps.map fun p => P p.1 p.2)).length = 1
    · have : t = 0 := by omega
      subst this
      rw [if_pos h1]; exact hget
    · rw [if_neg h1]; exact hget
  · intro y x hy hx hno
    rw [w5 0 P P' rfl rfl y x, hno]
    intro hmk
    rw [Nat.zero_add, maskAt] at hmk
    exact (m2 y x 0 P hy hx rfl).1 (by simpa using hmk.2.2.2.2) hno

theorem dataCells_exists (P : Int → Int → α) (nodata : α) (H W : Nat) : ∃ ps, DataCells P nodata H W ps := by
  refine ⟨maskIdx ⟨H, W, fun y x => decide (P y x ≠ nodata)⟩, ?_, (maskIdx_rowMajor _).2⟩
  intro y x
  rw [mem_maskIdx]
  simp

/-- C164 for functions of single values: every cell with data holds the function of its old value. -/
theorem C164_pointwise_partial {g : RGrid α} {H W : Nat} {P : Int → Int → α} (hg : g.Holds H W [P]) (garb : α) (h : α → α) (inplace : Bool) :
    ∃ g' P', g.apply garb (List.map h) inplace = (if inplace then g' else g, .ok g') ∧ g'.Holds H W [P'] ∧ g'.t = g.t ∧
      g'.nodata = g.nodata ∧
      ∀ y x : Nat, y < H → x < W → P' y x = if P y x = g.nodata then g.nodata else h (P y x) := by
  obtain ⟨ps, hps⟩ := dataCells_exists P g.nodata H W
  obtain ⟨g', P', e, h1, h2, h3, h4, h5⟩ := C164_single_partial hg garb (List.map h) (fun l => List.length_map ..) inplace ps hps
  refine ⟨g', P', e, h1, h2, h3, ?_⟩
  intro y x hy hx
  by_cases hno : P y x = g.nodata
  · rw [if_pos hno, h5 y x hy hx hno]
  · rw [if_neg hno]
    obtain ⟨t, ht⟩ := List.mem_iff_getElem?.1 ((hps.1 y x).2 ⟨hy, hx, hno⟩)
    have := h4 t y x ht
    rw [List.map_map, List.getElem?_map, ht] at this
    simpa using this.symm

/-- C164 is violated by grids of several bands: as soon as two cells of them hold data, `apply` raises `ValueError`. -/
theorem C164_violated_bands {g : RGrid α} {H W : Nat} {Ps : List (Int → Int → α)} (hg : g.Holds H W Ps) (garb : α) (f : List α → List α)
    (hf : ∀ l, (f l).length = l.length) (inplace : Bool) (hnb : 2 ≤ Ps.length) (y x k y' x' k' : Nat) (P P' : Int → Int → α)
    (hy : y < H) (hx : x < W) (hk : Ps[k]? = some P) (hd : P y x ≠ g.nodata)
    (hy' : y' < H) (hx' : x' < W) (hk' : Ps[k']? = some P') (hd' : P' y' x' ≠ g.nodata) (hne : (y, x, k) ≠ (y', x', k')) :
    (g.apply garb f inplace).2 = .error .valueError := by
  obtain ⟨m, vs, m1, m2, v1, v2, ha⟩ := apply_parts hg garb
  have hkl : k < Ps.length := (List.getElem?_eq_some_iff.1 hk).1
  have hkl' : k' < Ps.length := (List.getElem?_eq_some_iff.1 hk').1
  have i1 : (y, x, k) ∈ maskIdx3 H W Ps.length m := mem_maskIdx3.2 ⟨hy, hx, hkl, (m2 y x k P hy hx hk).2 hd⟩
  have i2 : (y', x', k') ∈ maskIdx3 H W Ps.length m := mem_maskIdx3.2 ⟨hy', hx', hkl', (m2 y' x' k' P' hy' hx' hk').2 hd'⟩
  have hlen : (f (vs.map fun v => v.getD garb)).length = (maskIdx3 H W Ps.length m).length := by rw [hf, List.length_map, v1]
  have hsub : ([(y, x, k), (y', x', k')] : List (Nat × Nat × Nat)) ⊆ maskIdx3 H W Ps.length m := by
    intro p hp
    simp only [List.mem_cons, List.not_mem_nil, or_false] at hp
    rcases hp with rfl | rfl
    · exact i1
    · exact i2
  have h2 := (List.subperm_of_subset (by simpa using hne) hsub).length_le
  simp only [List.length_cons, List.length_nil] at h2
  obtain ⟨q, hq, hqn⟩ := counts_differ m1 hnb hlen (by omega)
  have hM : MaskShape H W Ps.length (.three Ps.length m) := ⟨fun k hk => m1 k hk, rfl⟩
  have := setMask_misfit garb Ps.length m (f (vs.map fun v => v.getD garb)) hM (by omega) g.bands Ps 0 hg.1 (by rw [hg.1.1, Nat.zero_add])
    ⟨q, Nat.zero_le _, hq, hqn⟩
  have ht : (g.applyTo garb f).2 = some .valueError := by rw [ha]; exact this
  unfold RGrid.apply outcome
  cases inplace <;> simp [ht]

/-- C164: without `inplace` the grid is never changed, whatever happens. -/
theorem C164_untouched (g : RGrid α) (garb : α) (f : List α → List α) : (g.apply garb f false).1 = g := rfl

/-! ### Examples -/

/-- A grid of one band with three cells, of which the second has no data. -/
def holedBand : RGrid Int :=
  ⟨⟨0, 0, 1, 1, 0, 0⟩, [((CBand.new 1 3 1 2 (0 : Int)).setblock 0 0 ⟨1, 3, fun _ x => (x : Int) - 1⟩).1], 0⟩

theorem holedBand_holds : ∃ P, holedBand.Holds 1 3 [P] ∧ P 0 0 = -1 ∧ P 0 1 = holedBand.nodata ∧ P 0 2 = 1 := by
  let w : Write Int := ⟨0, 0, ⟨1, 3, fun _ x => (x : Int) - 1⟩⟩
  obtain ⟨b', e, h⟩ := (Reach.new (H := 1) (W := 3) 1 2 (by decide) (by decide) (0 : Int)).setblock w
    (by refine ⟨?_, ?_, ?_, ?_, ?_, ?_⟩ <;> decide)
  have hb : holedBand.bands = [b'] := by
    have : (((CBand.new 1 3 1 2 (0 : Int)).setblock 0 0 ⟨1, 3, fun _ x => (x : Int) - 1⟩).1) = b' := by
      have := congrArg Prod.fst e
      exact this
    unfold holedBand
    simp only [this]
  refine ⟨fun y x => if w.Covers y x then w.valueAt y x else 0, ⟨⟨by rw [hb]; rfl, ?_⟩, by rw [hb]; simp⟩,
    by simp [w, Write.Covers, Write.valueAt], by simp [w, Write.Covers, Write.valueAt, holedBand],
    by simp [w, Write.Covers, Write.valueAt]⟩
  intro k b P h1 h2
  rw [hb] at h1
  cases k with
  | zero => cases h1; cases h2; exact h
  | succ k => simp at h1

example : ∃ P P' : Int → Int → Int, ∃ g', holedBand.Holds 1 3 [P] ∧ P 0 1 = holedBand.nodata ∧
    holedBand.apply 0 (List.map (· * 7)) true = (g', .ok g') ∧ P' 0 0 = -7 ∧ P' 0 1 = 0 ∧ P' 0 2 = 7 := by
  obtain ⟨P, h, h0, h1, h2⟩ := holedBand_holds
  obtain ⟨g', P', e, -, -, -, hp⟩ := C164_pointwise_partial h 0 (· * 7) true
  refine ⟨P, P', g', h, h1, e, ?_, ?_, ?_⟩
  · have := hp 0 0 (by decide) (by decide)
    simp only [Nat.cast_zero, h0] at this
    rw [this]; decide
  · have := hp 0 1 (by decide) (by decide)
    simp only [Nat.cast_zero, Nat.cast_one, h1] at this
    rw [this]; decide
  · have := hp 0 2 (by decide) (by decide)
    simp only [Nat.cast_zero, Nat.cast_ofNat, h2] at this
    rw [this]; decide

/-- A grid of two bands with two cells, of which the second band has no data. -/
def emptySecond : RGrid Int :=
  ⟨⟨0, 0, 1, 1, 0, 0⟩,
    [((CBand.new 1 2 1 2 (0 : Int)).setblock 0 0 ⟨1, 2, fun _ x => (x : Int) + 5⟩).1, CBand.new 1 2 1 2 0], 0⟩

/-- A grid of two bands full of ones and twos. -/
def onesTwos : RGrid Int := ⟨⟨0, 0, 1, 1, 0, 0⟩, [CBand.new 1 1 1 1 1, CBand.new 1 1 1 1 2], 0⟩

theorem onesTwos_holds : onesTwos.Holds 1 1 [fun _ _ => 1, fun _ _ => 2] := by
  refine ⟨⟨rfl, ?_⟩, by simp [onesTwos]⟩
  intro k b P h1 h2
  match k with
  | 0 => cases h1; cases h2; exact .new 1 1 (by decide) (by decide) 1
  | 1 => cases h1; cases h2; exact .new 1 1 (by decide) (by decide) 2
  | k + 2 => simp [onesTwos] at h1

example : (onesTwos.apply 0 (List.map (· + 1)) false).2 = .error .valueError :=
  C164_violated_bands onesTwos_holds 0 _ (fun _ => List.length_map ..) false (by decide) 0 0 0 0 0 1 _ _ (by decide) (by decide) rfl
    (by decide) (by decide) (by decide) rfl (by decide) (by decide)

/-- C164 is violated: in place, the first band is changed although `apply` raises. -/
theorem C164_violated_halfway : (emptySecond.apply 0 (List.map (· + 1)) true).2.isOk = false ∧
    (match (emptySecond.apply 0 (List.map (· + 1)) true).1.bands with
      | b :: _ => (b.getblock 0 0 1 2).toOption.map fun a => (a.get 0 0, a.get 0 1)
      | [] => none) = some (some 6, some 7) := by
  decide +kernel

end Karta.Grid
