import Verif.Grid.Typed
import Verif.Grid.GridOpsProps
import Verif.Band.IndexerProps

/-!
Property C170: grids of integers of a fixed size.
-/

namespace Karta.Typed
open Karta Karta.Band Karta.Band.Spec Karta.Band.Indexer Karta.Grid

/-! ### Specification -/

/-- `n` is a number of type `T`. -/
def IntType.Has (T : IntType) (n : Int) : Prop := T.lo ≤ n ∧ n ≤ T.hi

/-- All pixels are numbers of type `T`. -/
def OfType (T : IntType) (H W : Nat) (Ps : List (Int → Int → Int)) : Prop :=
  ∀ (k : Nat) P, Ps[k]? = some P → ∀ y x : Nat, y < H → x < W → T.Has (P y x)

/-- The sizes of `uint8` and `int16`. -/
def uint8 : IntType := ⟨false, 8, by norm_num⟩
def int16 : IntType := ⟨true, 16, by norm_num⟩

example : uint8.lo = 0 ∧ uint8.hi = 255 ∧ int16.lo = -32768 ∧ int16.hi = 32767 := by decide

/-! ### Lemmas -/

theorem size_pos (T : IntType) : (0 : Int) < 2 ^ T.bits := by positivity

theorem hi_eq (T : IntType) : T.hi = T.lo + 2 ^ T.bits - 1 := by
  obtain ⟨s, b, hb⟩ := T
  obtain ⟨b, rfl⟩ : ∃ c, b = c + 1 := ⟨b - 1, by omega⟩
  cases s <;> simp [IntType.hi, IntType.lo, pow_succ]; ring

theorem lo_le (T : IntType) : T.lo ≤ 0 ∧ 0 ≤ T.hi := by
  obtain ⟨s, b, hb⟩ := T
  obtain ⟨b, rfl⟩ : ∃ c, b = c + 1 := ⟨b - 1, by omega⟩
  have h : (1 : Int) ≤ 2 ^ b := one_le_pow₀ (by norm_num)
  have h' : (1 : Int) ≤ 2 ^ (b + 1) := one_le_pow₀ (by norm_num)
  cases s <;> simp [IntType.hi, IntType.lo]
  · linarith
  · linarith

theorem wrap_has (T : IntType) (n : Int) : T.Has (T.wrap n) := by
  have h1 := Int.emod_nonneg (n - T.lo) (size_pos T).ne'
  have h2 := Int.emod_lt_of_pos (n - T.lo) (size_pos T)
  constructor
  · unfold IntType.wrap; omega
  · rw [hi_eq]; unfold IntType.wrap; omega

theorem wrap_of_has {T : IntType} {n : Int} (h : T.Has n) : T.wrap n = n := by
  obtain ⟨h1, h2⟩ := h
  rw [hi_eq] at h2
  unfold IntType.wrap
  rw [Int.emod_eq_of_lt (by omega) (by omega)]
  omega

theorem wrap_mod (T : IntType) (n : Int) : (2 ^ T.bits : Int) ∣ T.wrap n - n := by
  have := Int.emod_add_mul_ediv (n - T.lo) (2 ^ T.bits)
  refine ⟨-((n - T.lo) / 2 ^ T.bits), ?_⟩
  unfold IntType.wrap
  rw [mul_neg]
  omega

theorem eq_of_dvd {T : IntType} {a b : Int} (ha : T.Has a) (hb : T.Has b) (h : (2 ^ T.bits : Int) ∣ a - b) : a = b := by
  obtain ⟨a1, a2⟩ := ha
  obtain ⟨b1, b2⟩ := hb
  rw [hi_eq] at a2 b2
  obtain ⟨c, hc⟩ := h
  have hs := size_pos T
  have h1 : c < 1 := by by_contra hh; nlinarith
  have h2 : -1 < c := by by_contra hh; nlinarith
  have : c = 0 := by omega
  rw [this, mul_zero] at hc
  omega

theorem wrap_eq_iff {T : IntType} {n m : Int} (hm : T.Has m) : T.wrap n = m ↔ (2 ^ T.bits : Int) ∣ n - m := by
  constructor
  · rintro rfl
    have := wrap_mod T n
    rw [← neg_sub]; exact (dvd_neg).2 this
  · intro h
    refine eq_of_dvd (wrap_has T n) hm ?_
    have := dvd_add (wrap_mod T n) h
    rwa [sub_add_sub_cancel] at this

theorem nodata_has (T : IntType) : T.Has T.nodata := by
  have := lo_le T
  unfold IntType.Has IntType.nodata
  split <;> constructor <;> omega

/-! ### C170 -/

/-- C170.  Assignment through integers or unit-step slices: the addressed pixels hold the values given, as far as they are numbers of the type, and
else numbers of the type that differ from them by a multiple of `2 ^ bits`; all others keep their values. -/
theorem C170_write (T : IntType) {H W : Nat} {bands : List (CBand Int)} {Ps : List (Int → Int → Int)}
    (hB : Bands H W bands Ps) (hne : bands ≠ []) (ky kx : Key) (kb : Option Key) (rows cols bnds : List Int)
    (hy : positions H ky = some rows) (hx : positions W kx = some cols) (hb : bandPositions bands.length kb = some bnds)
    (iy : ¬ Inverted H ky) (ix : ¬ Inverted W kx)
    (uy : ∀ s, ky = .slice s → s.step.getD 1 = 1) (ux : ∀ s, kx = .slice s → s.step.getD 1 = 1)
    (v : Value Int) (f : Nat → Nat → Nat → Int) (hv : broadcast v rows.length cols.length bnds.length = some f) :
    ∃ bands' Ps', setitemT T bands ky kx kb v = (bands', none) ∧ bands'.length = bands.length ∧ Bands H W bands' Ps' ∧
      (∀ a b c y x k P', rows[a]? = some y → cols[b]? = some x → bnds[c]? = some k → Ps'[k.toNat]? = some P' →
        T.Has (P' y x) ∧ (2 ^ T.bits : Int) ∣ P' y x - f a b c ∧ (T.Has (f a b c) → P' y x = f a b c)) ∧
      (∀ (k : Nat) P P' y x, Ps[k]? = some P → Ps'[k]? = some P' → ¬ ((k:Int) ∈ bnds ∧ y ∈ rows ∧ x ∈ cols) → P' y x = P y x) := by
  have hv' : broadcast ⟨v.isArray, ⟨v.arr.shape, fun ix => T.wrap (v.arr.get ix)⟩⟩ rows.length cols.length bnds.length =
      some fun a b c => T.wrap (f a b c) := by
    obtain ⟨ia, sh, get⟩ := v
    revert hv
    unfold broadcast
    dsimp only
    split
    · rintro ⟨⟩; rfl
    · split_ifs <;> first | (rintro ⟨⟩; rfl) | simp
    · split_ifs <;> first | (rintro ⟨⟩; rfl) | simp
    · split_ifs <;> first | (rintro ⟨⟩; rfl) | simp
    · simp
  obtain ⟨bs, Ps', h1, h2, h3, h4, h5⟩ := Props.C06_sliced_write hB hne ky kx kb rows cols bnds hy hx hb iy ix uy ux _ _ hv'
  refine ⟨bs, Ps', h1, h2, h3, ?_, h5⟩
  intro a b c y x k P' ha hb' hc hP
  rw [h4 a b c y x k P' ha hb' hc hP]
  exact ⟨wrap_has T _, wrap_mod T _, wrap_of_has⟩

theorem setNodataT_spec (T : IntType) {g : RGrid Int} {H W : Nat} {Ps : List (Int → Int → Int)} (hg : g.Holds H W Ps) (ht : OfType T H W Ps)
    (garb val : Int) :
    ∃ g' Ps', setNodataT T garb g val = (g', none) ∧ g'.Holds H W Ps' ∧ Ps'.length = Ps.length ∧ OfType T H W Ps' ∧ g'.t = g.t ∧ g'.nodata = val ∧
      (∀ (k : Nat) P P', Ps[k]? = some P → Ps'[k]? = some P' → ∀ y x : Nat, y < H → x < W →
        P' y x = if P y x = g.nodata then T.wrap val else P y x) := by
  obtain ⟨M, m1, m2, m3⟩ := dataMaskFull_spec hg garb
  obtain ⟨A, a1, a2, a3⟩ := getAll hg.1 hg.2
  have hs := setitem_spec hg.1 hg.2 (ky := .slice .all) (kx := .slice .all) (kb := some (.slice .all))
    (positions_all H) (positions_all W) (positions_all g.bands.length)
    (not_inverted_all H) (not_inverted_all W)
    ⟨true, ⟨A.shape, fun ix => T.wrap (if M.get ix then (A.get ix).getD garb else val)⟩⟩
    (resolve_unit (by rintro s ⟨⟩; rfl)) (resolve_unit (by rintro s ⟨⟩; rfl))
  have hbc : broadcast ⟨true, ⟨A.shape, fun ix => T.wrap (if M.get ix then (A.get ix).getD garb else val)⟩⟩
      ((List.range H).map fun (k : Nat) => (k : Int)).length ((List.range W).map fun (k : Nat) => (k : Int)).length
      ((List.range g.bands.length).map fun (k : Nat) => (k : Int)).length =
      some fun a b c => T.wrap (if M.get [if H = 1 then 0 else a, if W = 1 then 0 else b,
        if g.bands.length = 1 then 0 else c] then (A.get [if H = 1 then 0 else a, if W = 1 then 0 else b,
        if g.bands.length = 1 then 0 else c]).getD garb else val) := by
    simp only [broadcast, a2, List.length_map, List.length_range, true_or, and_self, if_true]
  rw [hbc] at hs
  obtain ⟨bs', Ps', s1, s2, s3, s4, s5⟩ := hs
  have hg' : RGrid.Holds ({ g with bands := bs', nodata := val } : RGrid Int) H W Ps' := by
    refine ⟨s3, ?_⟩
    intro h
    simp only at h
    rw [h] at s2
    exact hg.2 (List.length_eq_zero_iff.1 s2.symm)
  have hlen : Ps'.length = Ps.length := by rw [← s3.1, s2, hg.1.1]
  have hval : ∀ (k : Nat) P P', Ps[k]? = some P → Ps'[k]? = some P' → ∀ y x : Nat, y < H → x < W →
      P' y x = if P y x = g.nodata then T.wrap val else P y x := by
    intro k P P' hP hP' y x hy hx
    have hk : k < g.bands.length := by rw [hg.1.1]; exact (List.getElem?_eq_some_iff.1 hP).1
    have h := s4 y x k y x k P' (by simp [hy]) (by simp [hx]) (by simp [hk]) (by simpa using hP')
    have f1 : (if H = 1 then 0 else y) = y := by split_ifs <;> omega
    have f2 : (if W = 1 then 0 else x) = x := by split_ifs <;> omega
    have f3 : (if g.bands.length = 1 then 0 else k) = k := by split_ifs <;> omega
    rw [h]
    simp only [f1, f2, f3, m3 y x k P hy hx hP, a3 y x k P hy hx hP]
    by_cases hc : P y x = g.nodata
    · simp [hc]
    · simp [hc, wrap_of_has (ht k P hP y x hy hx)]
  refine ⟨{ g with bands := bs', nodata := val }, Ps', ?_, hg', hlen, ?_, rfl, rfl, hval⟩
  · unfold setNodataT setitemT
    simp only [m1, a1, s1]
  · intro k P' hP' y x hy hx
    have hk : k < Ps.length := by rw [← hlen]; exact (List.getElem?_eq_some_iff.1 hP').1
    rw [hval k Ps[k] P' (List.getElem?_eq_getElem hk) hP' y x hy hx]
    split
    · exact wrap_has T val
    · exact ht k _ (List.getElem?_eq_getElem hk) y x hy hx

/-- C170.  A new nodata value that is a number of the type: exactly the missing pixels change, to this value, and if no pixel with data had it before,
the same pixels are missing afterwards. -/
theorem C170_nodata_partial (T : IntType) {g : RGrid Int} {H W : Nat} {Ps : List (Int → Int → Int)} (hg : g.Holds H W Ps) (ht : OfType T H W Ps)
    (garb val : Int) (hval : T.Has val) :
    ∃ g' Ps', setNodataT T garb g val = (g', none) ∧ g'.Holds H W Ps' ∧ Ps'.length = Ps.length ∧ OfType T H W Ps' ∧ g'.nodata = val ∧
      (∀ (k : Nat) P P', Ps[k]? = some P → Ps'[k]? = some P' → ∀ y x : Nat, y < H → x < W →
        P' y x = if P y x = g.nodata then val else P y x) ∧
      ((∀ (k : Nat) P, Ps[k]? = some P → ∀ y x : Nat, y < H → x < W → P y x ≠ g.nodata → P y x ≠ val) →
        ∃ M M', g.dataMaskFull garb = .ok M ∧ g'.dataMaskFull garb = .ok M' ∧ M.shape = M'.shape ∧
          ∀ y x k : Nat, y < H → x < W → k < Ps.length → M.get [y, x, k] = M'.get [y, x, k]) := by
  obtain ⟨g', Ps', h1, h2, h3, h4, -, h6, h7⟩ := setNodataT_spec T hg ht garb val
  rw [wrap_of_has hval] at h7
  refine ⟨g', Ps', h1, h2, h3, h4, h6, h7, fun hno => ?_⟩
  obtain ⟨M, m1, m2, m3⟩ := dataMaskFull_spec hg garb
  obtain ⟨M', n1, n2, n3⟩ := dataMaskFull_spec h2 garb
  refine ⟨M, M', m1, n1, by rw [m2, n2, h3], fun y x k hy hx hk => ?_⟩
  have hP := List.getElem?_eq_getElem hk
  have hP' := List.getElem?_eq_getElem (l := Ps') (i := k) (by omega)
  rw [m3 y x k _ hy hx hP, n3 y x k _ hy hx hP', h7 k _ _ hP hP' y x hy hx, h6]
  by_cases hc : Ps[k] y x = g.nodata
  · simp [hc]
  · simp [hc, hno k _ hP y x hy hx hc]

/-- C170 is violated by nodata values that are not numbers of the type: after `set_nodata_value` no pixel is missing, whatever was missing before, and
the missing ones have become data. -/
theorem C170_violated_nodata (T : IntType) {g : RGrid Int} {H W : Nat} {Ps : List (Int → Int → Int)} (hg : g.Holds H W Ps) (ht : OfType T H W Ps)
    (garb val : Int) (hval : ¬ T.Has val) :
    ∃ g' M', setNodataT T garb g val = (g', none) ∧ g'.dataMaskFull garb = .ok M' ∧
      ∀ y x k : Nat, y < H → x < W → k < Ps.length → M'.get [y, x, k] = true := by
  obtain ⟨g', Ps', h1, h2, h3, h4, -, h6, -⟩ := setNodataT_spec T hg ht garb val
  obtain ⟨M', n1, -, n3⟩ := dataMaskFull_spec h2 garb
  refine ⟨g', M', h1, n1, fun y x k hy hx hk => ?_⟩
  have hP' := List.getElem?_eq_getElem (l := Ps') (i := k) (by omega)
  rw [n3 y x k _ hy hx hP', h6]
  have := h4 k _ hP' y x hy hx
  exact decide_eq_true fun e => hval (e ▸ this)

/-- C170.  Sums are cell by cell: each cell of the sum is a number of the type, the sum of the two cells as far as that is a number of the type, and
else differs from it by a multiple of `2 ^ bits`. -/
theorem C170_sum (T : IntType) {g h : RGrid Int} {H W : Nat} {Ps Qs : List (Int → Int → Int)}
    (hg : g.Holds H W Ps) (hh : h.Holds H W Qs) (ht : g.t = h.t) (hn : Ps.length = Qs.length) (garb : Int) :
    ∃ r Rs, addT T garb g h = .ok r ∧ r.t = g.t ∧ r.nodata = g.nodata ∧ r.Holds H W Rs ∧ Rs.length = Ps.length ∧
      ∀ (k : Nat) R P Q, Rs[k]? = some R → Ps[k]? = some P → Qs[k]? = some Q → ∀ y x : Nat, y < H → x < W →
        T.Has (R y x) ∧ (2 ^ T.bits : Int) ∣ R y x - (P y x + Q y x) ∧ (T.Has (P y x + Q y x) → R y x = P y x + Q y x) := by
  obtain ⟨r, Rs, h1, h2, h3, h4, h5, h6⟩ := C113_cellwise (fun a b => T.wrap (a + b)) hg hh ht (Or.inl hn) 0 garb
  refine ⟨r, Rs, h1, h2, h3, h4, by rw [h5, hn, max_self], ?_⟩
  intro k R P Q hR hP hQ y x hy hx
  have sp : ∀ {L : List (Int → Int → Int)} {F}, L[k]? = some F → spread L k = some F := by
    intro L F hF
    unfold spread
    split
    · have := (List.getElem?_eq_some_iff.1 hF).1
      obtain rfl : k = 0 := by omega
      exact hF
    · exact hF
  rw [h6 k R P Q hR (sp hP) (sp hQ) y x hy hx]
  exact ⟨wrap_has T _, wrap_mod T _, wrap_of_has⟩

/-- C170 is violated by sums that are not numbers of the type: such a cell of the sum is not the sum of the cells. -/
theorem C170_violated_overflow (T : IntType) {g h : RGrid Int} {H W : Nat} {P Q : Int → Int → Int}
    (hg : g.Holds H W [P]) (hh : h.Holds H W [Q]) (ht : g.t = h.t) (garb : Int) {y x : Nat} (hy : y < H) (hx : x < W)
    (ho : ¬ T.Has (P y x + Q y x)) : ∃ r R, addT T garb g h = .ok r ∧ r.Holds H W [R] ∧ R y x ≠ P y x + Q y x := by
  obtain ⟨r, Rs, h1, -, -, h4, h5, h6⟩ := C170_sum T hg hh ht rfl garb
  match Rs, h5 with
  | [R], _ => exact ⟨r, R, h1, h4, fun e => ho (e ▸ (h6 0 R P Q rfl rfl rfl y x hy hx).1)⟩

/-- C170.  Subtracting a grid and adding it again gives back every cell, even if differences are not numbers of the type. -/
theorem C170_sub_add (T : IntType) {g h : RGrid Int} {H W : Nat} {P Q : Int → Int → Int}
    (hg : g.Holds H W [P]) (hh : h.Holds H W [Q]) (hP : OfType T H W [P]) (ht : g.t = h.t) (garb : Int) :
    ∃ d r R, subT T garb g h = .ok d ∧ addT T garb d h = .ok r ∧ r.t = g.t ∧ r.nodata = g.nodata ∧ r.Holds H W [R] ∧
      ∀ y x : Nat, y < H → x < W → R y x = P y x := by
  obtain ⟨d, Ds, d1, d2, d3, d4, d5, d6⟩ := C113_cellwise (fun a b => T.wrap (a - b)) hg hh ht (Or.inl rfl) 0 garb
  match Ds, d5 with
  | [D], _ =>
    obtain ⟨r, Rs, r1, r2, r3, r4, r5, r6⟩ := C113_cellwise (fun a b => T.wrap (a + b)) d4 hh (d2.trans ht) (Or.inl rfl) 0 garb
    match Rs, r5 with
    | [R], _ =>
      refine ⟨d, r, R, d1, r1, r2.trans d2, r3.trans d3, r4, ?_⟩
      intro y x hy hx
      rw [r6 0 R D Q rfl rfl rfl y x hy hx, d6 0 D P Q rfl rfl rfl y x hy hx, wrap_eq_iff (hP 0 P rfl y x hy hx)]
      have := wrap_mod T (P y x - Q y x)
      rwa [show T.wrap (P y x - Q y x) + Q y x - P y x = T.wrap (P y x - Q y x) - (P y x - Q y x) by ring]

/-- C170 is violated by missing pixels: where a pixel of the left grid is missing, it is missing in the sum only if the other pixel is zero; and where
it is missing in both of two grids with the default nodata value, it holds data in the sum and in the difference. -/
theorem C170_violated_missing (T : IntType) {g h : RGrid Int} {H W : Nat} {P Q : Int → Int → Int}
    (hg : g.Holds H W [P]) (hh : h.Holds H W [Q]) (hQ : OfType T H W [Q]) (ht : g.t = h.t) (garb : Int) (hnd : T.Has g.nodata)
    {y x : Nat} (hy : y < H) (hx : x < W) (hm : P y x = g.nodata) :
    ∃ s d S D, addT T garb g h = .ok s ∧ subT T garb g h = .ok d ∧ s.Holds H W [S] ∧ d.Holds H W [D] ∧ (S y x = s.nodata ↔ Q y x = 0) ∧
      (g.nodata = T.nodata → h.nodata = T.nodata → Q y x = h.nodata → S y x ≠ s.nodata ∧ D y x ≠ d.nodata) := by
  obtain ⟨s, Ss, s1, s2, s3, s4, s5, s6⟩ := C113_cellwise (fun a b => T.wrap (a + b)) hg hh ht (Or.inl rfl) 0 garb
  obtain ⟨d, Ds, d1, d2, d3, d4, d5, d6⟩ := C113_cellwise (fun a b => T.wrap (a - b)) hg hh ht (Or.inl rfl) 0 garb
  match Ss, s5, Ds, d5 with
  | [S], _, [D], _ =>
    have hS := s6 0 S P Q rfl rfl rfl y x hy hx
    have hD := d6 0 D P Q rfl rfl rfl y x hy hx
    have hq := hQ 0 Q rfl y x hy hx
    have h0 : T.Has 0 := lo_le T
    have nz : T.nodata ≠ 0 := by
      have := size_pos T
      have hb : (2 : Int) ≤ 2 ^ T.bits := by
        obtain ⟨c, hc⟩ : ∃ c, T.bits = c + 1 := ⟨T.bits - 1, by have := T.pos; omega⟩
        rw [hc, pow_succ]
        have : (1 : Int) ≤ 2 ^ c := one_le_pow₀ (by norm_num)
        linarith
      unfold IntType.nodata
      split
      · rename_i hs
        unfold IntType.lo
        rw [if_pos hs]
        have : (0 : Int) < 2 ^ (T.bits - 1) := by positivity
        omega
      · rename_i hs
        unfold IntType.hi
        rw [if_neg hs]
        omega
    have key : S y x = s.nodata ↔ Q y x = 0 := by
      rw [hS, s3, wrap_eq_iff hnd, hm, add_sub_cancel_left]
      constructor
      · intro hd
        exact eq_of_dvd hq h0 (by rwa [sub_zero])
      · intro e; rw [e]; exact dvd_zero _
    refine ⟨s, d, S, D, s1, d1, s4, d4, key, fun e1 e2 e3 => ⟨fun hc => ?_, fun hc => ?_⟩⟩
    · have := key.1 hc
      rw [e3, e2] at this
      exact nz this
    · rw [hD, d3, hm, e3, e2, e1, sub_self, wrap_of_has h0] at hc
      exact nz hc.symm

/-- C170.  Resizing a grid whose nodata value is a number of the type fills the new cells with it: it is the `resize` of C13. -/
theorem C170_resize_partial (T : IntType) (garb : Int) (g : RGrid Int) (h : T.Has g.nodata) (xmin ymin xmax ymax : ℚ) :
    resizeT T garb g xmin ymin xmax ymax = g.resize garb xmin ymin xmax ymax := by
  unfold resizeT
  rw [wrap_of_has h]
  have hn : ∀ r, g.resize garb xmin ymin xmax ymax = .ok r → r.nodata = g.nodata := by
    intro r
    unfold RGrid.resize
    dsimp only
    split_ifs
    · simp
    · simp
    · split
      · simp
      · rintro ⟨⟩; rfl
  cases e : g.resize garb xmin ymin xmax ymax with
  | error e' => rfl
  | ok r => simp only; rw [← hn r e]

/-- C170 is violated by resizing a grid whose nodata value is not a number of the type: the new cells outside the old grid hold data. -/
theorem C170_violated_resize (T : IntType) {g : RGrid Int} {H W : Nat} {Ps : List (Int → Int → Int)} (hg : g.Holds H W Ps) (h : ¬ T.Has g.nodata)
    (garb : Int) (hdx : 0 < g.t.dx) (hdy : 0 < g.t.dy) (hsx : g.t.sx = 0) (hsy : g.t.sy = 0)
    (xmin ymin xmax ymax : ℚ) (p q : Int)
    (hp : xmin = g.t.x0 + p * g.t.dx) (hq : ymin = g.t.y0 + q * g.t.dy)
    (ox1 : xmin < g.t.x0 + W * g.t.dx) (ox2 : g.t.x0 < xmax) (hx : xmin ≤ xmax)
    (oy1 : ymin < g.t.y0 + H * g.t.dy) (oy2 : g.t.y0 < ymax) (hy : ymin ≤ ymax) :
    ∃ g' H' W' Ps', resizeT T garb g xmin ymin xmax ymax = .ok g' ∧ g'.Holds H' W' Ps' ∧ g'.nodata = g.nodata ∧ Ps'.length = Ps.length ∧
      xmax - xmin ≤ W' * g.t.dx ∧ ymax - ymin ≤ H' * g.t.dy ∧
      ∀ (k : Nat) P', Ps'[k]? = some P' → ∀ y x : Nat, y < H' → x < W' →
        (∀ i j : Nat, i < H → j < W → centerCoord g.t i j ≠ centerCoord g'.t y x) → P' y x ≠ g'.nodata := by
  have hg2 : RGrid.Holds ({ g with nodata := T.wrap g.nodata } : RGrid Int) H W Ps := hg
  obtain ⟨r, H', W', Ps', r1, r2, r3, r4, r5, -, r6, -, r7, r8⟩ :=
    C13_resize_partial hg2 garb hdx hdy hsx hsy xmin ymin xmax ymax p q hp hq ox1 ox2 hx oy1 oy2 hy
  refine ⟨{ r with nodata := g.nodata }, H', W', Ps', ?_, r2, rfl, r4, r6, r7, ?_⟩
  · unfold resizeT
    rw [r1]
  · intro k P' hP' y x hy hx ho hc
    have hk : k < Ps.length := by rw [← r4]; exact (List.getElem?_eq_some_iff.1 hP').1
    have := (r8 k _ P' (List.getElem?_eq_getElem hk) hP' y x hy hx).2 ho
    rw [this] at hc
    exact h (hc ▸ wrap_has T g.nodata)

/-! ### Examples -/

/-- 200 + 100 in `uint8`, the sum of two missing pixels in `int16`, and -1 in `uint8`. -/
example : uint8.wrap (200 + 100) = 44 ∧ int16.wrap (-32768 + -32768) = 0 ∧ uint8.wrap (-1) = 255 := by decide

/-- A 2 × 3 grid of type `uint8` with a missing pixel. -/
example : ∃ (g : RGrid Int) (Ps : List (Int → Int → Int)), g.Holds 2 3 Ps ∧ OfType uint8 2 3 Ps ∧ g.nodata = uint8.nodata ∧ ¬ uint8.Has (-1) ∧
    uint8.Has 0 := by
  obtain ⟨g, Ps, -, -, hn, h, hl, hv⟩ := fromValues_spec (0 : Int) 0 ⟨0, 0, 1, 1, 0, 0⟩ uint8.nodata ⟨[2, 3, 1], fun
        | [y, x, k] => some (if y = 1 ∧ x = 1 then 255 else (10 * y + x + k : Nat))
        | _ => none⟩ 2 3 1 (by norm_num) rfl (fun y x k => if y = 1 ∧ x = 1 then 255 else (10 * y + x + k : Nat)) (by intros; rfl)
  refine ⟨g, Ps, h, ?_, hn, fun k => absurd k.1 (by decide), by decide, by decide⟩
  intro k P hP y x hy hx
  have hk : k < Ps.length := (List.getElem?_eq_some_iff.1 hP).1
  rw [hl] at hk
  obtain rfl : k = 0 := by omega
  rw [hv 0 P hP y x hy hx]
  show (0 : Int) ≤ _ ∧ _ ≤ (255 : Int)
  split <;> constructor <;> omega

end Karta.Typed
