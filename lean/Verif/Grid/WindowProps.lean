import Verif.Grid.WindowLemmas
import Verif.Grid.CoordProps

/-!
Properties C11 (tiling), C12 and C65 (clipping), C13 (resizing) and C18 (nodata value).
-/

namespace Karta.Grid
open Karta Karta.Band Karta.Band.Spec Karta.Band.Indexer

variable {α : Type _}

/-! ### Specification -/

/-- `g'` is the `h × w` window of `g` starting at cell `(i0, j0)`: it lies inside `g`, its pixels are
those of `g`, every cell has the same centre coordinates in both grids, and the nodata value is the
same. -/
def WindowOf (g g' : RGrid α) (H W : Nat) (Ps : List (Int → Int → α)) (i0 j0 h w : Nat) : Prop :=
  i0 + h ≤ H ∧ j0 + w ≤ W ∧ g'.nodata = g.nodata ∧
  (∀ y x : Nat, centerCoord g'.t y x = centerCoord g.t ((i0 + y : Nat) : Int) ((j0 + x : Nat) : Int)) ∧
  ∃ Ps', g'.Holds h w Ps' ∧ Ps'.length = Ps.length ∧
    ∀ (k : Nat) P P', Ps[k]? = some P → Ps'[k]? = some P' →
      ∀ y x : Nat, y < h → x < w → P' y x = P ((i0 + y : Nat) : Int) ((j0 + x : Nat) : Int)

/-- A window given by first cell and size. -/
structure Win where
  i0 : Nat
  j0 : Nat
  h : Nat
  w : Nat

/-- The window contains the pixel. -/
def Win.Has (v : Win) (y x : Nat) : Prop := v.i0 ≤ y ∧ y < v.i0 + v.h ∧ v.j0 ≤ x ∧ x < v.j0 + v.w

theorem moved_center (T : Xform) (i0 j0 y x : Nat) :
    centerCoord (T.moved i0 j0) y x = centerCoord T ((i0 + y : Nat) : Int) ((j0 + x : Nat) : Int) := by
  simp only [centerCoord, Xform.moved, Prod.mk.injEq]
  constructor <;> push_cast <;> ring

/-! ### C11 -/

theorem chunkLoop_row {ny nx w h ow oh : Int} (i0 : Int) (hi : i0 < ny) (fuel : Nat) :
    ∀ (n : Nat) (j0 : Int), (∀ k : Nat, k < n → j0 + k * (w - ow) < nx) →
      chunkLoop ny nx w h ow oh (fuel + n) i0 j0 =
        (chunkLoop ny nx w h ow oh fuel i0 (j0 + n * (w - ow))).map
          ((List.range n).map (fun (k : Nat) => (i0, j0 + k * (w - ow))) ++ ·) := by
  intro n
  induction n with
  | zero => intro j0 _; simp
  | succ n ih =>
    intro j0 hk
    have h0 : j0 < nx := by simpa using hk 0 (by omega)
    rw [show fuel + (n + 1) = (fuel + n) + 1 by omega, chunkLoop]
    simp only [if_neg (not_le.2 h0), ge_iff_le]
    rw [if_neg (not_le.2 hi), ih (j0 + (w - ow)) (by
      intro k hk'
      have := hk (k + 1) (by omega)
      push_cast at this
      linarith [add_mul (k : Int) 1 (w - ow)])]
    rw [List.range_succ_eq_map]
    have e : j0 + (w - ow) + n * (w - ow) = j0 + ((n + 1 : Nat) : Int) * (w - ow) := by push_cast; ring
    rw [e]
    cases chunkLoop ny nx w h ow oh fuel i0 (j0 + ((n + 1 : Nat) : Int) * (w - ow)) with
    | none => rfl
    | some l =>
      simp only [Option.map_some, List.map_cons, List.map_map, Nat.cast_zero, zero_mul, add_zero,
        Option.some.injEq, List.cons_append]
      congr 2
      apply List.map_congr_left
      intro k _
      simp only [Function.comp, Prod.mk.injEq, true_and]
      push_cast; ring

theorem chunkLoop_wrap {ny nx w h ow oh : Int} (hnx : 0 < nx) (i0 j0 : Int) (hj : nx ≤ j0) (fuel : Nat) :
    chunkLoop ny nx w h ow oh (fuel + 1) i0 j0 = chunkLoop ny nx w h ow oh (fuel + 1) (i0 + (h - oh)) 0 := by
  simp only [chunkLoop, ge_iff_le, if_pos hj, if_neg (not_le.2 hnx)]

/-- All window origins, row by row. -/
def origins (sw sh : Int) (nr nc : Nat) : List (Int × Int) :=
  (List.range nr).flatMap fun (a : Nat) => (List.range nc).map fun (b : Nat) => ((a : Int) * sh, (b : Int) * sw)

theorem chunkLoop_rows {ny nx w h ow oh : Int} (hnx : 0 < nx) (nc : Nat) (hnc : nx ≤ nc * (w - ow))
    (hc : ∀ k : Nat, k < nc → k * (w - ow) < nx) (fuel : Nat) :
    ∀ (n : Nat) (i0 : Int), (∀ k : Nat, k < n → i0 + k * (h - oh) < ny) → ny ≤ i0 + n * (h - oh) →
      chunkLoop ny nx w h ow oh (fuel + 1 + n * nc) i0 0 =
        some ((List.range n).flatMap fun (a : Nat) => (List.range nc).map fun (b : Nat) =>
          (i0 + (a : Int) * (h - oh), (b : Int) * (w - ow))) := by
  intro n
  induction n with
  | zero =>
    intro i0 _ h2
    simp only [Nat.cast_zero, zero_mul, add_zero] at h2
    simp only [Nat.zero_mul, Nat.add_zero, chunkLoop, ge_iff_le, if_neg (not_le.2 hnx), if_pos h2,
      List.range_zero, List.flatMap_nil]
  | succ n ih =>
    intro i0 h1 h2
    have hi : i0 < ny := by simpa using h1 0 (by omega)
    rw [show fuel + 1 + (n + 1) * nc = (fuel + 1 + n * nc) + nc by ring,
      chunkLoop_row i0 hi _ nc 0 (by intro k hk; simpa using hc k hk)]
    rw [show fuel + 1 + n * nc = (fuel + n * nc) + 1 by ring,
      chunkLoop_wrap hnx i0 _ (by simpa using hnc),
      show (fuel + n * nc) + 1 = fuel + 1 + n * nc by ring,
      ih (i0 + (h - oh)) (by
        intro k hk
        have := h1 (k + 1) (by omega)
        push_cast at this
        linarith [add_mul (k : Int) 1 (h - oh)])
      (by push_cast at h2; linarith [add_mul (n : Int) 1 (h - oh)])]
    rw [List.range_succ_eq_map, List.flatMap_cons, List.flatMap_map]
    simp only [Option.map_some, zero_add, Nat.cast_zero, zero_mul, add_zero, Option.some.injEq]
    congr 1
    apply List.flatMap_congr
    intro a _
    apply List.map_congr_left
    intro b _
    simp only [Prod.mk.injEq, and_true]
    push_cast; ring

/-- Number of steps of length `s` needed to pass `n`. -/
theorem steps_exist {n s : Int} (hs : 0 < s) (hn : 0 ≤ n) :
    ∃ c : Nat, n ≤ c * s ∧ ∀ k : Nat, k < c → k * s < n := by
  refine ⟨((n + s - 1) / s).toNat, ?_, ?_⟩
  · have h0 : 0 ≤ (n + s - 1) / s := Int.ediv_nonneg (by omega) hs.le
    rw [Int.toNat_of_nonneg h0]
    have := Int.lt_ediv_add_one_mul_self (n + s - 1) hs
    linarith [add_mul ((n + s - 1) / s) 1 s]
  · intro k hk
    have h0 : (k : Int) + 1 ≤ (n + s - 1) / s := by omega
    have := (Int.le_ediv_iff_mul_le hs).1 h0
    linarith [add_mul (k : Int) 1 s]

/-- The step that contains a position. -/
theorem step_of {n s : Int} (hs : 0 < s) (c : Nat) (hc : n ≤ c * s) {y : Nat} (hy : (y : Int) < n) :
    ∃ a : Nat, a < c ∧ (a : Int) * s ≤ y ∧ (y : Int) < a * s + s := by
  refine ⟨((y : Int) / s).toNat, ?_, ?_, ?_⟩
  · have h0 : 0 ≤ (y : Int) / s := Int.ediv_nonneg (by omega) hs.le
    have : (y : Int) / s < c := (Int.ediv_lt_iff_lt_mul hs).2 (by omega)
    omega
  · rw [Int.toNat_of_nonneg (Int.ediv_nonneg (by omega) hs.le)]
    exact Int.ediv_mul_le _ hs.ne'
  · rw [Int.toNat_of_nonneg (Int.ediv_nonneg (by omega) hs.le)]
    have := Int.lt_ediv_add_one_mul_self (y : Int) hs
    linarith [add_mul ((y : Int) / s) 1 s]

theorem step_unique {s : Int} (hs : 0 < s) {a b : Nat} {y : Int} (h1 : (a : Int) * s ≤ y)
    (h2 : y < a * s + s) (h3 : (b : Int) * s ≤ y) (h4 : y < b * s + s) : a = b := by
  have e1 : y / s = a := by
    apply Int.le_antisymm
    · have := (Int.ediv_lt_iff_lt_mul hs (a := y) (b := a + 1)).2 (by linarith [add_mul (a : Int) 1 s]); omega
    · exact (Int.le_ediv_iff_mul_le hs).2 h1
  have e2 : y / s = b := by
    apply Int.le_antisymm
    · have := (Int.ediv_lt_iff_lt_mul hs (a := y) (b := b + 1)).2 (by linarith [add_mul (b : Int) 1 s]); omega
    · exact (Int.le_ediv_iff_mul_le hs).2 h3
  omega

theorem origins_get {sw sh : Int} {nr nc : Nat} :
    (∀ a b : Nat, a < nr → b < nc → (origins sw sh nr nc)[a * nc + b]? = some ((a : Int) * sh, (b : Int) * sw)) ∧
    ∀ k o, (origins sw sh nr nc)[k]? = some o → ∃ a b : Nat, a < nr ∧ b < nc ∧ k = a * nc + b ∧
      o = ((a : Int) * sh, (b : Int) * sw) := by
  have hlen : ∀ n, (origins sw sh n nc).length = n * nc := by
    intro n; simp [origins, List.length_flatMap]
  have hget : ∀ n, ∀ a b : Nat, a < n → b < nc →
      (origins sw sh n nc)[a * nc + b]? = some ((a : Int) * sh, (b : Int) * sw) := by
    intro n
    induction n with
    | zero => intro a b ha; omega
    | succ n ih =>
      intro a b ha hb
      have e : origins sw sh (n + 1) nc = origins sw sh n nc ++
          (List.range nc).map (fun (b : Nat) => ((n : Int) * sh, (b : Int) * sw)) := by
        simp [origins, List.range_succ]
      rw [e]
      rcases Nat.lt_succ_iff_lt_or_eq.1 ha with h | rfl
      · rw [List.getElem?_append_left (by rw [hlen]; nlinarith)]
        exact ih a b h hb
      · rw [List.getElem?_append_right (by rw [hlen]; omega), hlen]
        simp [hb]
  refine ⟨hget nr, ?_⟩
  intro k o hk
  have hlt : k < nr * nc := by
    have := (List.getElem?_eq_some_iff.1 hk).1; rwa [hlen] at this
  have hnc : 0 < nc := by
    rcases Nat.eq_zero_or_pos nc with h | h
    · subst h; simp at hlt
    · exact h
  refine ⟨k / nc, k % nc, Nat.div_lt_of_lt_mul (by rwa [Nat.mul_comm]), Nat.mod_lt _ hnc, ?_, ?_⟩
  · rw [Nat.mul_comm]; exact (Nat.div_add_mod k nc).symm
  · have := hget nr (k / nc) (k % nc) (Nat.div_lt_of_lt_mul (by rwa [Nat.mul_comm])) (Nat.mod_lt _ hnc)
    have e : k / nc * nc + k % nc = k := by rw [Nat.mul_comm]; exact Nat.div_add_mod k nc
    rw [e, hk] at this
    exact Option.some.inj this

/-- C11.  For every grid with at least one column and every window size larger than the overlap, the
generator ends; each grid yielded is a window of the original carrying its pixels and coordinates;
every pixel belongs to some window; and with no overlap to exactly one. -/
theorem C11_tiling {g : RGrid α} {H W : Nat} {Ps : List (Int → Int → α)} (hg : g.Holds H W Ps)
    (zero garb : α) (hW : 0 < W) (w h ow oh : Int) (how : 0 ≤ ow) (hoh : 0 ≤ oh) (hw : ow < w) (hh : oh < h) :
    ∃ N, ∀ fuel, N ≤ fuel → ∃ (gs : List (RGrid α)) (vs : List Win), g.aschunks zero garb (some (w, h)) (ow, oh) fuel = some (.ok gs) ∧
      vs.length = gs.length ∧
      (∀ (k : Nat) (v : Win) g', vs[k]? = some v → gs[k]? = some g' →
        WindowOf g g' H W Ps v.i0 v.j0 v.h v.w) ∧
      (∀ y x, y < H → x < W → ∃ (k : Nat) (v : Win), vs[k]? = some v ∧ v.Has y x) ∧
      (ow = 0 → oh = 0 → ∀ y x, y < H → x < W →
        ∃! k : Nat, ∃ v : Win, vs[k]? = some v ∧ v.Has y x) := by
  obtain ⟨nc, hc1, hc2⟩ := steps_exist (n := W) (s := w - ow) (by omega) (by omega)
  obtain ⟨nr, hr1, hr2⟩ := steps_exist (n := H) (s := h - oh) (by omega) (by omega)
  refine ⟨1 + nr * nc, fun fuel hf => ?_⟩
  obtain ⟨f, rfl⟩ : ∃ f, fuel = f + 1 + nr * nc := ⟨fuel - (1 + nr * nc), by omega⟩
  have hloop := chunkLoop_rows (ny := H) (nx := W) (w := w) (h := h) (ow := ow) (oh := oh) (by omega) nc hc1 hc2
    f nr 0 (by intro k hk; simpa using hr2 k hk) (by simpa using hr1)
  simp only [zero_add] at hloop
  change chunkLoop H W w h ow oh (f + 1 + nr * nc) 0 0 = some (origins (w - ow) (h - oh) nr nc) at hloop
  obtain ⟨og1, og2⟩ := origins_get (sw := w - ow) (sh := h - oh) (nr := nr) (nc := nc)
  have hsub : ∀ o ∈ origins (w - ow) (h - oh) nr nc, ∃ g',
      g.sub zero garb (g.t.moved o.1 o.2) o.1 (o.1 + h) o.2 (o.2 + w) = .ok g' ∧
      WindowOf g g' H W Ps o.1.toNat o.2.toNat (min (o.1 + h) H - o.1).toNat (min (o.2 + w) W - o.2).toNat := by
    intro o ho
    obtain ⟨k, hk⟩ := List.mem_iff_getElem?.1 ho
    obtain ⟨a, b, ha, hb, -, rfl⟩ := og2 k o hk
    have a1 := hr2 a ha
    have b1 := hc2 b hb
    have a0 : 0 ≤ (a : Int) * (h - oh) := mul_nonneg (by omega) (by omega)
    have b0 : 0 ≤ (b : Int) * (w - ow) := mul_nonneg (by omega) (by omega)
    obtain ⟨I, hI⟩ : ∃ I : Nat, (a : Int) * (h - oh) = I := ⟨((a : Int) * (h - oh)).toNat, by omega⟩
    obtain ⟨J, hJ⟩ : ∃ J : Nat, (b : Int) * (w - ow) = J := ⟨((b : Int) * (w - ow)).toNat, by omega⟩
    simp only [hI, hJ] at a1 b1 ⊢
    obtain ⟨g', Ps', e1, e2, e3, e4, e5, e6⟩ := sub_spec hg zero garb (g.t.moved I J) I (I + h) J (J + w)
      (by omega) (by omega) (by omega) (by omega)
    have mI : min (I : Int) H = I := by omega
    have mJ : min (J : Int) W = J := by omega
    rw [mI, mJ] at e4 e6
    refine ⟨g', e1, ?_, ?_, e3, ?_, Ps', e4, e5, ?_⟩
    · omega
    · omega
    · intro y x; rw [e2]; exact moved_center g.t I J y x
    · intro k P P' hP hP' y x hy hx
      have := e6 k P P' hP hP' y x (by omega) (by omega)
      rw [this]; push_cast; simp
  obtain ⟨gs, m1, m2, m3⟩ := mapM_ok (fun o : Int × Int =>
    g.sub zero garb (g.t.moved o.1 o.2) o.1 (o.1 + h) o.2 (o.2 + w)) (origins (w - ow) (h - oh) nr nc)
    (fun o ho => let ⟨g', h1, _⟩ := hsub o ho; ⟨g', h1⟩)
  have hcov : ∀ a b : Nat, a < nr → b < nc → ∀ y x : Nat, y < H → x < W →
      (a : Int) * (h - oh) ≤ y → (y : Int) < a * (h - oh) + h →
      (b : Int) * (w - ow) ≤ x → (x : Int) < b * (w - ow) + w →
      (⟨((a : Int) * (h - oh)).toNat, ((b : Int) * (w - ow)).toNat,
        (min ((a : Int) * (h - oh) + h) H - (a : Int) * (h - oh)).toNat,
        (min ((b : Int) * (w - ow) + w) W - (b : Int) * (w - ow)).toNat⟩ : Win).Has y x := by
    intro a b ha hb y x hy hx h1 h2 h3 h4
    have a0 : 0 ≤ (a : Int) * (h - oh) := mul_nonneg (by omega) (by omega)
    have b0 : 0 ≤ (b : Int) * (w - ow) := mul_nonneg (by omega) (by omega)
    have a1 := hr2 a ha
    have b1 := hc2 b hb
    generalize (a : Int) * (h - oh) = I at *
    generalize (b : Int) * (w - ow) = J at *
    refine ⟨?_, ?_, ?_, ?_⟩ <;> simp only <;> omega
  refine ⟨gs, (origins (w - ow) (h - oh) nr nc).map (fun o => ⟨o.1.toNat, o.2.toNat,
    (min (o.1 + h) H - o.1).toNat, (min (o.2 + w) W - o.2).toNat⟩), ?_, by simp [m2], ?_, ?_, ?_⟩
  · simp only [RGrid.aschunks, hg.size, hloop, Option.map_some, m1]
  · intro k v g' hv hk
    rw [List.getElem?_map] at hv
    obtain ⟨o, ho, rfl⟩ := Option.map_eq_some_iff.1 hv
    obtain ⟨g'', hg1, hg2⟩ := m3 k o ho
    rw [hk] at hg1
    cases hg1
    obtain ⟨g3, h31, h32⟩ := hsub o (List.mem_of_getElem? ho)
    rw [hg2] at h31
    cases h31
    exact h32
  · intro y x hy hx
    obtain ⟨a, ha, a1, a2⟩ := step_of (s := h - oh) (by omega) nr hr1 (y := y) (by omega)
    obtain ⟨b, hb, b1, b2⟩ := step_of (s := w - ow) (by omega) nc hc1 (y := x) (by omega)
    refine ⟨a * nc + b, _, ?_, hcov a b ha hb y x hy hx a1 (by omega) b1 (by omega)⟩
    rw [List.getElem?_map, og1 a b ha hb]
    rfl
  · rintro rfl rfl y x hy hx
    obtain ⟨a, ha, a1, a2⟩ := step_of (s := h - 0) (by omega) nr hr1 (y := y) (by omega)
    obtain ⟨b, hb, b1, b2⟩ := step_of (s := w - 0) (by omega) nc hc1 (y := x) (by omega)
    refine ⟨a * nc + b, ⟨_, ?_, hcov a b ha hb y x hy hx a1 (by omega) b1 (by omega)⟩, ?_⟩
    · rw [List.getElem?_map, og1 a b ha hb]
      rfl
    · rintro k ⟨v, hv, hhas⟩
      rw [List.getElem?_map] at hv
      obtain ⟨o, ho, rfl⟩ := Option.map_eq_some_iff.1 hv
      obtain ⟨a', b', ha', hb', rfl, rfl⟩ := og2 k o ho
      obtain ⟨c1, c2, c3, c4⟩ := hhas
      simp only at c1 c2 c3 c4
      have a0' : 0 ≤ (a' : Int) * (h - 0) := mul_nonneg (by omega) (by omega)
      have b0' : 0 ≤ (b' : Int) * (w - 0) := mul_nonneg (by omega) (by omega)
      have ea : a = a' := step_unique (s := h - 0) (by omega) a1 a2 (by omega) (by omega)
      have eb : b = b' := step_unique (s := w - 0) (by omega) b1 b2 (by omega) (by omega)
      rw [ea, eb]

/-- C11, the default window size on a grid of at least four rows and columns: one quarter of each
dimension (rounded down) and no overlap, to which `C11_tiling` applies. -/
theorem C11_default_size (g : RGrid α) (zero garb : α) (fuel : Nat) :
    g.aschunks zero garb none (0, 0) fuel =
      g.aschunks zero garb (some ((g.size.2 : Int) / 4, (g.size.1 : Int) / 4)) (0, 0) fuel := rfl

theorem chunkLoop_stuck {ny nx w h ow oh : Int} (hny : 0 < ny) (hnx : 0 < nx)
    (hs : w - ow = 0 ∨ h - oh = 0) (fuel : Nat) :
    ∀ j0 : Int, (w - ow = 0 → j0 = 0) → chunkLoop ny nx w h ow oh fuel 0 j0 = none := by
  induction fuel with
  | zero => intro j0 _; rfl
  | succ fuel ih =>
    intro j0 hj
    rcases hs with hw | hh
    · have := hj hw
      subst this
      simp only [chunkLoop, ge_iff_le, if_neg (not_le.2 hnx), if_neg (not_le.2 hny)]
      rw [hw, add_zero, ih 0 (fun _ => rfl)]
      rfl
    · have e : (if j0 ≥ nx then 0 + (h - oh) else 0) = 0 := by rw [hh]; simp
      simp only [chunkLoop, e, ge_iff_le, if_neg (not_le.2 hny)]
      rw [ih _ (by intro hw; split_ifs with hc <;> [skip; skip] <;> have := hj hw <;> omega)]
      rfl

/-- C11 is violated for the default window size on grids with fewer than four rows or columns: the
window size becomes zero and the generator never ends. -/
theorem C11_violated_default_on_small_grids {g : RGrid α} {H W : Nat} {Ps : List (Int → Int → α)}
    (hg : g.Holds H W Ps) (zero garb : α) (hH : 0 < H) (hW : 0 < W) (hs : H < 4 ∨ W < 4) (fuel : Nat) :
    g.aschunks zero garb none (0, 0) fuel = none := by
  simp only [RGrid.aschunks, hg.size]
  rw [chunkLoop_stuck (by omega) (by omega) (by omega) fuel 0 (fun _ => rfl)]
  rfl


/-! ### C12 -/

theorem affine_ge {p q r a b c d X Y m : ℚ} (h1 : a ≤ X) (h2 : X ≤ b) (h3 : c ≤ Y) (h4 : Y ≤ d)
    (k1 : m ≤ p * a + q * c + r) (k2 : m ≤ p * b + q * c + r) (k3 : m ≤ p * a + q * d + r)
    (k4 : m ≤ p * b + q * d + r) : m ≤ p * X + q * Y + r := by
  rcases le_total 0 p with hp | hp <;> rcases le_total 0 q with hq | hq
  · linarith [mul_le_mul_of_nonneg_left h1 hp, mul_le_mul_of_nonneg_left h3 hq]
  · linarith [mul_le_mul_of_nonneg_left h1 hp, mul_le_mul_of_nonpos_left h4 hq]
  · linarith [mul_le_mul_of_nonpos_left h2 hp, mul_le_mul_of_nonneg_left h3 hq]
  · linarith [mul_le_mul_of_nonpos_left h2 hp, mul_le_mul_of_nonpos_left h4 hq]

theorem affine_le {p q r a b c d X Y m : ℚ} (h1 : a ≤ X) (h2 : X ≤ b) (h3 : c ≤ Y) (h4 : Y ≤ d)
    (k1 : p * a + q * c + r ≤ m) (k2 : p * b + q * c + r ≤ m) (k3 : p * a + q * d + r ≤ m)
    (k4 : p * b + q * d + r ≤ m) : p * X + q * Y + r ≤ m := by
  have := affine_ge (p := -p) (q := -q) (r := -r) (m := -m) h1 h2 h3 h4 (by linarith) (by linarith)
    (by linarith) (by linarith)
  linarith

/-- The inverse of the transform. -/
theorem solve_uv {x0 y0 dx dy sx sy u v x y : ℚ} (hd : dx * dy - sx * sy ≠ 0)
    (e1 : x = x0 + v * dx + u * sx) (e2 : y = y0 + u * dy + v * sy) :
    u = (-sy / (dx * dy - sx * sy)) * x + (dx / (dx * dy - sx * sy)) * y +
      (sy * x0 - dx * y0) / (dx * dy - sx * sy) ∧
    v = (dy / (dx * dy - sx * sy)) * x + (-sx / (dx * dy - sx * sy)) * y +
      (sx * y0 - dy * x0) / (dx * dy - sx * sy) := by
  subst e1 e2
  constructor
  · rw [div_mul_eq_mul_div, div_mul_eq_mul_div, ← add_div, ← add_div, eq_div_iff hd]; ring
  · rw [div_mul_eq_mul_div, div_mul_eq_mul_div, ← add_div, ← add_div, eq_div_iff hd]; ring

theorem min4 {a b c d x : ℚ} : min (min a b) (min c d) ≤ x ↔ (a ≤ x ∨ b ≤ x) ∨ (c ≤ x ∨ d ≤ x) := by
  simp only [min_le_iff]

theorem box_in_hull {x0 y0 dx dy sx sy xmin xmax ymin ymax u1 u2 u3 u4 v1 v2 v3 v4 U V mi Mi mj Mj : ℚ}
    (hd : dx * dy - sx * sy ≠ 0)
    (e1 : xmin = x0 + v1 * dx + u1 * sx ∧ ymin = y0 + u1 * dy + v1 * sy)
    (e2 : xmax = x0 + v2 * dx + u2 * sx ∧ ymin = y0 + u2 * dy + v2 * sy)
    (e3 : xmin = x0 + v3 * dx + u3 * sx ∧ ymax = y0 + u3 * dy + v3 * sy)
    (e4 : xmax = x0 + v4 * dx + u4 * sx ∧ ymax = y0 + u4 * dy + v4 * sy)
    (k1 : xmin ≤ x0 + (V + 1 / 2) * dx + (U + 1 / 2) * sx)
    (k2 : x0 + (V + 1 / 2) * dx + (U + 1 / 2) * sx ≤ xmax)
    (k3 : ymin ≤ y0 + (U + 1 / 2) * dy + (V + 1 / 2) * sy)
    (k4 : y0 + (U + 1 / 2) * dy + (V + 1 / 2) * sy ≤ ymax)
    (hmi : mi = min (min (u1 - 1 / 2) (u2 - 1 / 2)) (min (u3 - 1 / 2) (u4 - 1 / 2)))
    (hMi : Mi = max (max (u1 - 1 / 2) (u2 - 1 / 2)) (max (u3 - 1 / 2) (u4 - 1 / 2)))
    (hmj : mj = min (min (v1 - 1 / 2) (v2 - 1 / 2)) (min (v3 - 1 / 2) (v4 - 1 / 2)))
    (hMj : Mj = max (max (v1 - 1 / 2) (v2 - 1 / 2)) (max (v3 - 1 / 2) (v4 - 1 / 2))) :
    mi ≤ U ∧ U ≤ Mi ∧ mj ≤ V ∧ V ≤ Mj := by
  obtain ⟨s1, t1⟩ := solve_uv hd e1.1 e1.2
  obtain ⟨s2, t2⟩ := solve_uv hd e2.1 e2.2
  obtain ⟨s3, t3⟩ := solve_uv hd e3.1 e3.2
  obtain ⟨s4, t4⟩ := solve_uv hd e4.1 e4.2
  obtain ⟨s, t⟩ := solve_uv (x0 := x0) (y0 := y0) (u := U + 1 / 2) (v := V + 1 / 2) hd rfl rfl
  have l1 : mi ≤ u1 - 1 / 2 ∧ mi ≤ u2 - 1 / 2 ∧ mi ≤ u3 - 1 / 2 ∧ mi ≤ u4 - 1 / 2 := by
    rw [hmi]; simp only [min4, le_refl, true_or, or_true, and_self]
  have l2 : mj ≤ v1 - 1 / 2 ∧ mj ≤ v2 - 1 / 2 ∧ mj ≤ v3 - 1 / 2 ∧ mj ≤ v4 - 1 / 2 := by
    rw [hmj]; simp only [min4, le_refl, true_or, or_true, and_self]
  have l3 : u1 - 1 / 2 ≤ Mi ∧ u2 - 1 / 2 ≤ Mi ∧ u3 - 1 / 2 ≤ Mi ∧ u4 - 1 / 2 ≤ Mi := by
    rw [hMi]; simp only [le_max_iff, le_refl, true_or, or_true, and_self]
  have l4 : v1 - 1 / 2 ≤ Mj ∧ v2 - 1 / 2 ≤ Mj ∧ v3 - 1 / 2 ≤ Mj ∧ v4 - 1 / 2 ≤ Mj := by
    rw [hMj]; simp only [le_max_iff, le_refl, true_or, or_true, and_self]
  have r1 := affine_ge (m := mi + 1 / 2) k1 k2 k3 k4 (by rw [← s1]; linarith [l1.1])
    (by rw [← s2]; linarith [l1.2.1]) (by rw [← s3]; linarith [l1.2.2.1]) (by rw [← s4]; linarith [l1.2.2.2])
  have r2 := affine_le (m := Mi + 1 / 2) k1 k2 k3 k4 (by rw [← s1]; linarith [l3.1])
    (by rw [← s2]; linarith [l3.2.1]) (by rw [← s3]; linarith [l3.2.2.1]) (by rw [← s4]; linarith [l3.2.2.2])
  have r3 := affine_ge (m := mj + 1 / 2) k1 k2 k3 k4 (by rw [← t1]; linarith [l2.1])
    (by rw [← t2]; linarith [l2.2.1]) (by rw [← t3]; linarith [l2.2.2.1]) (by rw [← t4]; linarith [l2.2.2.2])
  have r4 := affine_le (m := Mj + 1 / 2) k1 k2 k3 k4 (by rw [← t1]; linarith [l4.1])
    (by rw [← t2]; linarith [l4.2.1]) (by rw [← t3]; linarith [l4.2.2.1]) (by rw [← t4]; linarith [l4.2.2.2])
  rw [← s] at r1 r2
  rw [← t] at r3 r4
  exact ⟨by linarith, by linarith, by linarith, by linarith⟩

theorem axis_box {x0 d a b v w x : ℚ} (hd : d ≠ 0) (e1 : a = x0 + v * d) (e2 : b = x0 + w * d) (hab : a ≤ b)
    (m : min (v - 1 / 2) (w - 1 / 2) ≤ x) (M : x ≤ max (v - 1 / 2) (w - 1 / 2)) :
    a ≤ x0 + (x + 1 / 2) * d ∧ x0 + (x + 1 / 2) * d ≤ b := by
  subst e1 e2
  rcases lt_or_gt_of_ne hd with h | h
  · have hw : w ≤ v := by
      by_contra hc; push Not at hc; nlinarith
    rw [min_eq_right (by linarith)] at m
    rw [max_eq_left (by linarith)] at M
    constructor <;> nlinarith
  · have hw : v ≤ w := by
      by_contra hc; push Not at hc; nlinarith
    rw [min_eq_left (by linarith)] at m
    rw [max_eq_right (by linarith)] at M
    constructor <;> nlinarith

theorem unskewed_box {x0 y0 dx dy xmin xmax ymin ymax u1 u2 u3 u4 v1 v2 v3 v4 U V mi Mi mj Mj : ℚ}
    (hx0 : dx ≠ 0) (hy0 : dy ≠ 0)
    (e1 : xmin = x0 + v1 * dx ∧ ymin = y0 + u1 * dy)
    (e2 : xmax = x0 + v2 * dx ∧ ymin = y0 + u2 * dy)
    (e3 : xmin = x0 + v3 * dx ∧ ymax = y0 + u3 * dy)
    (e4 : xmax = x0 + v4 * dx ∧ ymax = y0 + u4 * dy) (hxx : xmin ≤ xmax) (hyy : ymin ≤ ymax)
    (m1 : mi ≤ U) (m2 : U ≤ Mi) (m3 : mj ≤ V) (m4 : V ≤ Mj)
    (hmi : mi = min (min (u1 - 1 / 2) (u2 - 1 / 2)) (min (u3 - 1 / 2) (u4 - 1 / 2)))
    (hMi : Mi = max (max (u1 - 1 / 2) (u2 - 1 / 2)) (max (u3 - 1 / 2) (u4 - 1 / 2)))
    (hmj : mj = min (min (v1 - 1 / 2) (v2 - 1 / 2)) (min (v3 - 1 / 2) (v4 - 1 / 2)))
    (hMj : Mj = max (max (v1 - 1 / 2) (v2 - 1 / 2)) (max (v3 - 1 / 2) (v4 - 1 / 2))) :
    xmin ≤ x0 + (V + 1 / 2) * dx ∧ x0 + (V + 1 / 2) * dx ≤ xmax ∧
    ymin ≤ y0 + (U + 1 / 2) * dy ∧ y0 + (U + 1 / 2) * dy ≤ ymax := by
  have w1 : v3 = v1 := mul_right_cancel₀ hx0 (by linarith [e1.1, e3.1])
  have w2 : v4 = v2 := mul_right_cancel₀ hx0 (by linarith [e2.1, e4.1])
  have w3 : u2 = u1 := mul_right_cancel₀ hy0 (by linarith [e1.2, e2.2])
  have w4 : u4 = u3 := mul_right_cancel₀ hy0 (by linarith [e3.2, e4.2])
  subst w1 w2 w3 w4
  rw [min_self, min_self] at hmi
  rw [max_self, max_self] at hMi
  rw [min_self] at hmj
  rw [max_self] at hMj
  have A := axis_box hx0 e1.1 e2.1 hxx (hmj ▸ m3) (hMj ▸ m4)
  have B := axis_box hy0 e1.2 e3.2 hyy (hmi ▸ m1) (hMi ▸ m2)
  exact ⟨A.1, A.2, B.1, B.2⟩

/-- Common part of C12 and C65: the corners of the box do not lie beyond the first row or column, and the
first row and column of the window exist. -/
theorem clip_core {g : RGrid α} {H W : Nat} {Ps : List (Int → Int → α)} (hg : g.Holds H W Ps)
    (zero garb : α) (hT : g.t.Regular) (xmin xmax ymin ymax : ℚ)
    (u1 u2 u3 u4 v1 v2 v3 v4 : ℚ) (e1 : (xmin, ymin) = g.t.at u1 v1) (e2 : (xmax, ymin) = g.t.at u2 v2)
    (e3 : (xmin, ymax) = g.t.at u3 v3) (e4 : (xmax, ymax) = g.t.at u4 v4)
    (a1 : 0 ≤ u1) (a2 : 0 ≤ u2) (a3 : 0 ≤ u3) (a4 : 0 ≤ u4)
    (c1 : 0 ≤ v1) (c2 : 0 ≤ v2) (c3 : 0 ≤ v3) (c4 : 0 ≤ v4)
    (li' : min (min (u1 - 1 / 2) (u2 - 1 / 2)) (min (u3 - 1 / 2) (u4 - 1 / 2)) ≤ H)
    (lj' : min (min (v1 - 1 / 2) (v2 - 1 / 2)) (min (v3 - 1 / 2) (v4 - 1 / 2)) ≤ W) :
    ∃ g' i0 j0 h w, g.clip zero garb xmin xmax ymin ymax = some (.ok g') ∧
      WindowOf g g' H W Ps i0 j0 h w ∧
      (∀ y x : Nat, y < H → x < W → xmin ≤ (centerCoord g.t y x).1 → (centerCoord g.t y x).1 ≤ xmax →
        ymin ≤ (centerCoord g.t y x).2 → (centerCoord g.t y x).2 ≤ ymax →
        (⟨i0, j0, h, w⟩ : Win).Has y x) ∧
      (g.t.sx = 0 → g.t.sy = 0 → xmin ≤ xmax → ymin ≤ ymax →
        ∀ y x : Nat, (⟨i0, j0, h, w⟩ : Win).Has y x →
        xmin ≤ (centerCoord g.t y x).1 ∧ (centerCoord g.t y x).1 ≤ xmax ∧
        ymin ≤ (centerCoord g.t y x).2 ∧ (centerCoord g.t y x).2 ≤ ymax) := by
  have p1 : positions g.t xmin ymin = some (u1 - 1 / 2, v1 - 1 / 2) := by
    have := positions_at hT u1 v1; rwa [← e1] at this
  have p2 : positions g.t xmax ymin = some (u2 - 1 / 2, v2 - 1 / 2) := by
    have := positions_at hT u2 v2; rwa [← e2] at this
  have p3 : positions g.t xmin ymax = some (u3 - 1 / 2, v3 - 1 / 2) := by
    have := positions_at hT u3 v3; rwa [← e3] at this
  have p4 : positions g.t xmax ymax = some (u4 - 1 / 2, v4 - 1 / 2) := by
    have := positions_at hT u4 v4; rwa [← e4] at this
  simp only [RGrid.clip, clipBounds, p1, p2, p3, p4, Option.map_some, Option.some.injEq]
  set mi := min (min (u1 - 1 / 2) (u2 - 1 / 2)) (min (u3 - 1 / 2) (u4 - 1 / 2)) with hmi
  set Mi := max (max (u1 - 1 / 2) (u2 - 1 / 2)) (max (u3 - 1 / 2) (u4 - 1 / 2)) with hMi
  set mj := min (min (v1 - 1 / 2) (v2 - 1 / 2)) (min (v3 - 1 / 2) (v4 - 1 / 2)) with hmj
  set Mj := max (max (v1 - 1 / 2) (v2 - 1 / 2)) (max (v3 - 1 / 2) (v4 - 1 / 2)) with hMj
  have lo : ∀ {a b c d : ℚ}, 0 ≤ a → 0 ≤ b → 0 ≤ c → 0 ≤ d →
      -1 / 2 ≤ min (min (a - 1 / 2) (b - 1 / 2)) (min (c - 1 / 2) (d - 1 / 2)) := by
    intro a b c d ha hb hc hd
    simp only [le_min_iff]
    exact ⟨⟨by linarith, by linarith⟩, ⟨by linarith, by linarith⟩⟩
  have li : -1 / 2 ≤ mi := lo a1 a2 a3 a4
  have lj : -1 / 2 ≤ mj := lo c1 c2 c3 c4
  have mMi : mi ≤ Mi := le_trans (min_le_left _ _) (le_trans (min_le_left _ _)
    (le_trans (le_max_left _ _) (le_max_left _ _)))
  have mMj : mj ≤ Mj := le_trans (min_le_left _ _) (le_trans (min_le_left _ _)
    (le_trans (le_max_left _ _) (le_max_left _ _)))
  have ci : (0 : Int) ≤ ⌈mi⌉ := by
    have : (-1 : Int) < ⌈mi⌉ := Int.lt_ceil.2 (by push_cast; linarith)
    omega
  have cj : (0 : Int) ≤ ⌈mj⌉ := by
    have : (-1 : Int) < ⌈mj⌉ := Int.lt_ceil.2 (by push_cast; linarith)
    omega
  have ti : ⌈mi⌉ ≤ (H : Int) := Int.ceil_le.2 (by push_cast; exact li')
  have tj : ⌈mj⌉ ≤ (W : Int) := Int.ceil_le.2 (by push_cast; exact lj')
  have cfi : ⌈mi⌉ ≤ ⌊Mi⌋ + 1 := by
    have : ⌈mi⌉ ≤ ⌈Mi⌉ := Int.ceil_le_ceil mMi
    have := Int.ceil_le_floor_add_one Mi; omega
  have cfj : ⌈mj⌉ ≤ ⌊Mj⌋ + 1 := by
    have : ⌈mj⌉ ≤ ⌈Mj⌉ := Int.ceil_le_ceil mMj
    have := Int.ceil_le_floor_add_one Mj; omega
  obtain ⟨I, hI⟩ : ∃ I : Nat, ⌈mi⌉ = I := ⟨⌈mi⌉.toNat, by omega⟩
  obtain ⟨J, hJ⟩ : ∃ J : Nat, ⌈mj⌉ = J := ⟨⌈mj⌉.toNat, by omega⟩
  rw [hI, hJ]
  rw [hI] at ci cfi ti
  rw [hJ] at cj cfj tj
  obtain ⟨g', Ps', q1, q2, q3, q4, q5, q6⟩ := sub_spec hg zero garb (g.t.moved I J) I (⌊Mi⌋ + 1) J (⌊Mj⌋ + 1)
    ci cfi cj cfj
  have mI : min (I : Int) H = I := by omega
  have mJ : min (J : Int) W = J := by omega
  rw [mI, mJ] at q4 q6
  refine ⟨g', I, J, (min (⌊Mi⌋ + 1) (H : Int) - I).toNat, (min (⌊Mj⌋ + 1) (W : Int) - J).toNat, q1,
    ⟨by omega, by omega, q3, ?_, Ps', q4, q5, ?_⟩, ?_, ?_⟩
  · intro y x; rw [q2]; exact moved_center g.t I J y x
  · intro k P P' hP hP' y x hy hx
    have := q6 k P P' hP hP' y x (by omega) (by omega)
    rw [this]; push_cast; rfl
  · -- every centre in the box is kept
    intro y x hy' hx' k1 k2 k3 k4
    obtain ⟨hd, hy0⟩ := hT
    have ec : centerCoord g.t y x = g.t.at ((y : ℚ) + 1 / 2) ((x : ℚ) + 1 / 2) := by
      simp only [centerCoord, Xform.at]; push_cast; rfl
    rw [ec] at k1 k2 k3 k4
    have key : mi ≤ y ∧ (y : ℚ) ≤ Mi ∧ mj ≤ x ∧ (x : ℚ) ≤ Mj := by
      simp only [Xform.at, Prod.mk.injEq] at e1 e2 e3 e4 k1 k2 k3 k4
      exact box_in_hull hd e1 e2 e3 e4 k1 k2 k3 k4 hmi hMi hmj hMj
    obtain ⟨m1, m2, m3, m4⟩ := key
    have n1 : ⌈mi⌉ ≤ (y : Int) := Int.ceil_le.2 (by push_cast; exact m1)
    have n2 : (y : Int) ≤ ⌊Mi⌋ := Int.le_floor.2 (by push_cast; exact m2)
    have n3 : ⌈mj⌉ ≤ (x : Int) := Int.ceil_le.2 (by push_cast; exact m3)
    have n4 : (x : Int) ≤ ⌊Mj⌋ := Int.le_floor.2 (by push_cast; exact m4)
    rw [hI] at n1
    rw [hJ] at n3
    refine ⟨?_, ?_, ?_, ?_⟩ <;> simp only <;> omega
  · intro hsx hsy hxx hyy y x hhas
    obtain ⟨k1, k2, k3, k4⟩ := hhas
    simp only at k1 k2 k3 k4
    have n1 : ⌈mi⌉ ≤ (y : Int) := by omega
    have n2 : (y : Int) ≤ ⌊Mi⌋ := by omega
    have n3 : ⌈mj⌉ ≤ (x : Int) := by omega
    have n4 : (x : Int) ≤ ⌊Mj⌋ := by omega
    have m1 : mi ≤ y := by have := Int.ceil_le.1 n1; exact_mod_cast this
    have m2 : (y : ℚ) ≤ Mi := by have := Int.le_floor.1 n2; exact_mod_cast this
    have m3 : mj ≤ x := by have := Int.ceil_le.1 n3; exact_mod_cast this
    have m4 : (x : ℚ) ≤ Mj := by have := Int.le_floor.1 n4; exact_mod_cast this
    obtain ⟨hd, hy0⟩ := hT
    rw [hsx, hsy] at hd
    simp only [mul_zero, sub_zero] at hd
    have hx0 : g.t.dx ≠ 0 := left_ne_zero_of_mul hd
    simp only [Xform.at, Prod.mk.injEq, hsx, hsy, mul_zero, add_zero] at e1 e2 e3 e4
    simp only [centerCoord, hsx, hsy, mul_zero, add_zero]
    push_cast
    exact unskewed_box hx0 hy0 e1 e2 e3 e4 hxx hyy m1 m2 m3 m4 hmi hMi hmj hMj


/-- C12.  For every clip box whose corners lie in the grid: the result is a window of the grid (same
pixels at the same coordinates, same nodata); it contains every cell whose centre lies in the box;
and, when the grid is not skewed, no other cell. -/
theorem C12_clip {g : RGrid α} {H W : Nat} {Ps : List (Int → Int → α)} (hg : g.Holds H W Ps)
    (zero garb : α) (hT : g.t.Regular) (xmin xmax ymin ymax : ℚ)
    (h1 : g.t.InGrid H W (xmin, ymin)) (h2 : g.t.InGrid H W (xmax, ymin))
    (h3 : g.t.InGrid H W (xmin, ymax)) (h4 : g.t.InGrid H W (xmax, ymax)) :
    ∃ g' i0 j0 h w, g.clip zero garb xmin xmax ymin ymax = some (.ok g') ∧
      WindowOf g g' H W Ps i0 j0 h w ∧
      (∀ y x : Nat, y < H → x < W → xmin ≤ (centerCoord g.t y x).1 → (centerCoord g.t y x).1 ≤ xmax →
        ymin ≤ (centerCoord g.t y x).2 → (centerCoord g.t y x).2 ≤ ymax →
        (⟨i0, j0, h, w⟩ : Win).Has y x) ∧
      (g.t.sx = 0 → g.t.sy = 0 → xmin ≤ xmax → ymin ≤ ymax →
        ∀ y x : Nat, (⟨i0, j0, h, w⟩ : Win).Has y x →
        xmin ≤ (centerCoord g.t y x).1 ∧ (centerCoord g.t y x).1 ≤ xmax ∧
        ymin ≤ (centerCoord g.t y x).2 ∧ (centerCoord g.t y x).2 ≤ ymax) := by
  obtain ⟨u1, v1, a1, b1, c1, d1, e1⟩ := h1
  obtain ⟨u2, v2, a2, b2, c2, d2, e2⟩ := h2
  obtain ⟨u3, v3, a3, b3, c3, d3, e3⟩ := h3
  obtain ⟨u4, v4, a4, b4, c4, d4, e4⟩ := h4
  have lo : ∀ {a b c d n : ℚ}, a ≤ n → min (min (a - 1 / 2) (b - 1 / 2)) (min (c - 1 / 2) (d - 1 / 2)) ≤ n := by
    intro a b c d n h
    exact min4.2 (Or.inl (Or.inl (by linarith)))
  exact clip_core hg zero garb hT xmin xmax ymin ymax u1 u2 u3 u4 v1 v2 v3 v4 e1 e2 e3 e4
    a1 a2 a3 a4 c1 c2 c3 c4 (lo b1) (lo d1)

/-- C65, when no corner of the box lies before the first row or column of the grid: for every such box
that contains the centre of a cell, however far it reaches beyond the other edges, the result is a window
of the grid with the pixels at their coordinates. -/
theorem C65_clip_beyond_far_edges_partial {g : RGrid α} {H W : Nat} {Ps : List (Int → Int → α)} (hg : g.Holds H W Ps)
    (zero garb : α) (hT : g.t.Regular) (xmin xmax ymin ymax : ℚ)
    (hcorner : ∀ p, p = (xmin, ymin) ∨ p = (xmax, ymin) ∨ p = (xmin, ymax) ∨ p = (xmax, ymax) →
      ∃ u v : ℚ, 0 ≤ u ∧ 0 ≤ v ∧ p = g.t.at u v)
    (hmeet : ∃ y x : Nat, y < H ∧ x < W ∧ xmin ≤ (centerCoord g.t y x).1 ∧ (centerCoord g.t y x).1 ≤ xmax ∧
        ymin ≤ (centerCoord g.t y x).2 ∧ (centerCoord g.t y x).2 ≤ ymax) :
    ∃ g' i0 j0 h w, g.clip zero garb xmin xmax ymin ymax = some (.ok g') ∧
      WindowOf g g' H W Ps i0 j0 h w ∧
      (∀ y x : Nat, y < H → x < W → xmin ≤ (centerCoord g.t y x).1 → (centerCoord g.t y x).1 ≤ xmax →
        ymin ≤ (centerCoord g.t y x).2 → (centerCoord g.t y x).2 ≤ ymax →
        (⟨i0, j0, h, w⟩ : Win).Has y x) ∧
      (g.t.sx = 0 → g.t.sy = 0 → xmin ≤ xmax → ymin ≤ ymax →
        ∀ y x : Nat, (⟨i0, j0, h, w⟩ : Win).Has y x →
        xmin ≤ (centerCoord g.t y x).1 ∧ (centerCoord g.t y x).1 ≤ xmax ∧
        ymin ≤ (centerCoord g.t y x).2 ∧ (centerCoord g.t y x).2 ≤ ymax) := by
  obtain ⟨u1, v1, a1, c1, e1⟩ := hcorner _ (Or.inl rfl)
  obtain ⟨u2, v2, a2, c2, e2⟩ := hcorner _ (Or.inr (Or.inl rfl))
  obtain ⟨u3, v3, a3, c3, e3⟩ := hcorner _ (Or.inr (Or.inr (Or.inl rfl)))
  obtain ⟨u4, v4, a4, c4, e4⟩ := hcorner _ (Or.inr (Or.inr (Or.inr rfl)))
  obtain ⟨y, x, hy, hx, k1, k2, k3, k4⟩ := hmeet
  have ec : centerCoord g.t y x = g.t.at ((y : ℚ) + 1 / 2) ((x : ℚ) + 1 / 2) := by
    simp only [centerCoord, Xform.at]; push_cast; rfl
  rw [ec] at k1 k2 k3 k4
  have f1 := e1
  have f2 := e2
  have f3 := e3
  have f4 := e4
  simp only [Xform.at, Prod.mk.injEq] at e1 e2 e3 e4 k1 k2 k3 k4
  obtain ⟨m1, -, m3, -⟩ := box_in_hull hT.1 e1 e2 e3 e4 k1 k2 k3 k4 rfl rfl rfl rfl
  have hy' : (y : ℚ) ≤ H := by exact_mod_cast hy.le
  have hx' : (x : ℚ) ≤ W := by exact_mod_cast hx.le
  exact clip_core hg zero garb hT xmin xmax ymin ymax u1 u2 u3 u4 v1 v2 v3 v4 f1 f2 f3 f4
    a1 a2 a3 a4 c1 c2 c3 c4 (m1.trans hy') (m3.trans hx')

/-- A 2 × 2 grid with cells of size one. -/
def exGrid : Except Err (RGrid Int) :=
  fromValues 0 0 ⟨0, 0, 1, 1, 0, 0⟩ (-9) ⟨[2, 2], fun
    | [r, c] => some (10 * (r : Int) + c)
    | _ => none⟩

/-- Pixel of the first band. -/
def RGrid.peek (g : RGrid α) (r c : Int) : Option α :=
  match g.bands with
  | [] => none
  | b :: _ => match b.getblock r c 1 1 with
    | .ok A => A.get 0 0
    | .error _ => none

/-- The clip of the example to a box that starts five columns left of the grid. -/
def exClip : Except Err (Option (Except Err (RGrid Int))) :=
  exGrid.map fun g => g.clip 0 0 (-5) 2 0 2

/-- What one sees of a clip result: the centre of the first cell, its value and the size. -/
def seen : Except Err (Option (Except Err (RGrid Int))) → Option ((ℚ × ℚ) × Option Int × (Nat × Nat))
  | .ok (some (.ok g)) => some (centerCoord g.t 0 0, g.peek 0 0, g.size)
  | _ => none

/-- C65: a clip box that reaches outside the grid shifts the data.  The cell of the original
with value 0 has its centre at (1/2, 1/2); in the clip it is at (-9/2, 1/2). -/
theorem C65_violated_box_outside_grid :
    (exGrid.map fun g => (centerCoord g.t 0 0, g.peek 0 0)).toOption = some ((1 / 2, 1 / 2), some 0) ∧
    seen exClip = some ((-9 / 2, 1 / 2), some 0, (2, 2)) := by
  decide +kernel

/-! ### C13 -/

theorem roundHalfDown_int (n : Int) : roundHalfDown n = n := by
  simp [roundHalfDown]

theorem bbox_unskewed {t : Xform} (H W : Nat) (hx : 0 < t.dx) (hy : 0 < t.dy) (hsx : t.sx = 0) (hsy : t.sy = 0) :
    bbox t H W = (t.x0, t.y0, t.x0 + t.dx * W, t.y0 + t.dy * H) := by
  have a : 0 ≤ t.dx * W := by positivity
  have b : 0 ≤ t.dy * H := by positivity
  simp only [bbox, extent, Bool.false_eq_true, if_false, add_zero, hsx, hsy]
  rw [farBound_aligned (Or.inl rfl), farBound_aligned (Or.inl rfl)]
  simp only [zero_mul, add_zero]
  rw [min_eq_left (by linarith), min_eq_left (by linarith), max_eq_right (by linarith), max_eq_right (by linarith)]

theorem bands_mapM {H W H' W' : Nat} {R : (Int → Int → α) → (Int → Int → α) → Prop}
    (f : CBand α → Except Err (CBand α)) :
    ∀ {bs : List (CBand α)} {Ps : List (Int → Int → α)}, Bands H W bs Ps →
    (∀ b P, Reach H W b P → ∃ b' P', f b = .ok b' ∧ Reach H' W' b' P' ∧ R P P') →
    ∃ bs' Ps', bs.mapM f = .ok bs' ∧ bs'.length = bs.length ∧ Bands H' W' bs' Ps' ∧ Ps'.length = Ps.length ∧
      ∀ (k : Nat) P P', Ps[k]? = some P → Ps'[k]? = some P' → R P P' := by
  intro bs
  induction bs with
  | nil =>
    intro Ps hB h
    obtain rfl : Ps = [] := List.length_eq_zero_iff.1 hB.1.symm
    exact ⟨[], [], rfl, rfl, ⟨rfl, by simp⟩, rfl, by simp⟩
  | cons b bs ih =>
    intro Ps hB h
    cases Ps with
    | nil => exact absurd hB.1 (by simp)
    | cons P Ps =>
      obtain ⟨bs', Ps', e1, e2, e3, e4, e5⟩ := ih (Ps := Ps) ⟨by simpa using hB.1, fun k b P hb hP =>
        hB.2 (k + 1) b P (by simpa using hb) (by simpa using hP)⟩ h
      obtain ⟨b', P', f1, f2, f3⟩ := h b P (hB.2 0 b P rfl rfl)
      refine ⟨b' :: bs', P' :: Ps', ?_, by simp [e2], ⟨by simp [e3.1], ?_⟩, by simp [e4], ?_⟩
      · simp only [List.mapM_cons, f1, e1]; rfl
      · intro k b2 P2 hb hP
        cases k with
        | zero => simp at hb hP; subst hb hP; exact f2
        | succ k => exact e3.2 k b2 P2 (by simpa using hb) (by simpa using hP)
      · intro k P2 P3 hb hP
        cases k with
        | zero => simp at hb hP; subst hb hP; exact f3
        | succ k => exact e5 k P2 P3 (by simpa using hb) (by simpa using hP)

theorem resizeBand_spec {H W : Nat} {b : CBand α} {P : Int → Int → α} (hb : Reach H W b P) (garb nodata : α)
    (ny nx : Nat) (i0n j0n i0 j0 h w : Int) (hr : InRange H W i0 j0 h w) (hw : InRange ny nx i0n j0n h w) :
    ∃ b' P', resizeBand garb nodata ny nx i0n j0n i0 j0 h w b = .ok b' ∧ Reach ny nx b' P' ∧
      ∀ y x : Int, P' y x = if i0n ≤ y ∧ y < i0n + h ∧ j0n ≤ x ∧ x < j0n + w
        then P (i0 + (y - i0n)) (j0 + (x - j0n)) else nodata := by
  obtain ⟨blk, e1, e2, e3, e4⟩ := hb.getblock i0 j0 h w hr
  obtain ⟨r1, r2, r3, r4, r5, r6⟩ := hr
  obtain ⟨b', f1, f2⟩ := (Reach.new (H := ny) (W := nx) 256 256 (by norm_num) (by norm_num) nodata).setblock
    ⟨i0n, j0n, blk.map fun o => o.getD garb⟩ (by
      obtain ⟨w1, w2, w3, w4, w5, w6⟩ := hw
      refine ⟨w1, w2, by simp, by simp, ?_, ?_⟩ <;> simp only [Arr.map, e2, e3] <;> omega)
  refine ⟨b', _, ?_, f2, ?_⟩
  · unfold resizeBand
    simp only [e1]
    simp only at f1
    rw [f1]
  · intro y x
    by_cases hc : i0n ≤ y ∧ y < i0n + h ∧ j0n ≤ x ∧ x < j0n + w
    · rw [if_pos hc, if_pos (by
        simp only [Write.Covers, Arr.map, e2, e3]; omega)]
      simp only [Write.valueAt, Arr.map]
      rw [e4 _ _ (by omega) (by omega), Option.getD_some]
      congr 1 <;> omega
    · rw [if_neg hc, if_neg (by
        simp only [Write.Covers, Arr.map, e2, e3]; omega)]

/-- C13, for grids with positive spacing and no skew and every box whose origin is a cell corner
(`p` columns and `q` rows from the grid's) and which overlaps the grid: the new grid starts at the box's origin, has just enough cells to
reach its far corner, and each of its cells holds the value of the cell of the old grid with the same
centre, or nodata if the old grid has no such cell. -/
theorem C13_resize_partial {g : RGrid α} {H W : Nat} {Ps : List (Int → Int → α)} (hg : g.Holds H W Ps)
    (garb : α) (hdx : 0 < g.t.dx) (hdy : 0 < g.t.dy) (hsx : g.t.sx = 0) (hsy : g.t.sy = 0)
    (xmin ymin xmax ymax : ℚ) (p q : Int)
    (hp : xmin = g.t.x0 + p * g.t.dx) (hq : ymin = g.t.y0 + q * g.t.dy)
    (ox1 : xmin < g.t.x0 + W * g.t.dx) (ox2 : g.t.x0 < xmax) (hx : xmin ≤ xmax)
    (oy1 : ymin < g.t.y0 + H * g.t.dy) (oy2 : g.t.y0 < ymax) (hy : ymin ≤ ymax) :
    ∃ g' H' W' Ps', g.resize garb xmin ymin xmax ymax = .ok g' ∧ g'.Holds H' W' Ps' ∧
      g'.nodata = g.nodata ∧ Ps'.length = Ps.length ∧
      g'.t = { g.t with x0 := xmin, y0 := ymin } ∧
      (W' : ℚ) * g.t.dx < xmax - xmin + g.t.dx ∧ xmax - xmin ≤ W' * g.t.dx ∧
      (H' : ℚ) * g.t.dy < ymax - ymin + g.t.dy ∧ ymax - ymin ≤ H' * g.t.dy ∧
      ∀ (k : Nat) P P', Ps[k]? = some P → Ps'[k]? = some P' → ∀ y x : Nat, y < H' → x < W' →
        (∀ i j : Nat, i < H → j < W → centerCoord g.t i j = centerCoord g'.t y x → P' y x = P i j) ∧
        ((∀ i j : Nat, i < H → j < W → centerCoord g.t i j ≠ centerCoord g'.t y x) → P' y x = g.nodata) := by
  set dx := g.t.dx with hdx'
  set dy := g.t.dy with hdy'
  set cx : Int := ⌈(xmax - xmin) / dx⌉ with hcx
  set cy : Int := ⌈(ymax - ymin) / dy⌉ with hcy
  have cx0 : 0 ≤ cx := Int.ceil_nonneg (div_nonneg (by linarith) hdx.le)
  have cy0 : 0 ≤ cy := Int.ceil_nonneg (div_nonneg (by linarith) hdy.le)
  have cx1 : (xmax - xmin) ≤ cx * dx := (div_le_iff₀ hdx).1 (Int.le_ceil _)
  have cx2 : (cx : ℚ) * dx < xmax - xmin + dx := by
    have h1 := Int.ceil_lt_add_one ((xmax - xmin) / dx)
    rw [← hcx] at h1
    have h2 : (cx : ℚ) * dx < ((xmax - xmin) / dx + 1) * dx := mul_lt_mul_of_pos_right h1 hdx
    rw [add_mul, div_mul_cancel₀ _ hdx.ne'] at h2
    linarith
  have cy1 : (ymax - ymin) ≤ cy * dy := (div_le_iff₀ hdy).1 (Int.le_ceil _)
  have cy2 : (cy : ℚ) * dy < ymax - ymin + dy := by
    have h1 := Int.ceil_lt_add_one ((ymax - ymin) / dy)
    rw [← hcy] at h1
    have h2 : (cy : ℚ) * dy < ((ymax - ymin) / dy + 1) * dy := mul_lt_mul_of_pos_right h1 hdy
    rw [add_mul, div_mul_cancel₀ _ hdy.ne'] at h2
    linarith
  have pW : p < W := by
    have : (p : ℚ) * dx < W * dx := by linarith
    have := lt_of_mul_lt_mul_right this hdx.le
    exact_mod_cast this
  have qH : q < H := by
    have : (q : ℚ) * dy < H * dy := by linarith
    have := lt_of_mul_lt_mul_right this hdy.le
    exact_mod_cast this
  have pc : 0 < p + cx := by
    have : (0 : ℚ) * dx < ((p : ℚ) + cx) * dx := by rw [add_mul]; linarith
    have := lt_of_mul_lt_mul_right this hdx.le
    exact_mod_cast this
  have qc : 0 < q + cy := by
    have : (0 : ℚ) * dy < ((q : ℚ) + cy) * dy := by rw [add_mul]; linarith
    have := lt_of_mul_lt_mul_right this hdy.le
    exact_mod_cast this
  have n1 : roundHalfDown ((xmin + dx * (cx : ℚ) - xmin) / dx) = cx := by
    rw [show (xmin + dx * (cx : ℚ) - xmin) / dx = cx by field_simp; ring]; exact roundHalfDown_int _
  have n2 : roundHalfDown ((ymin + dy * (cy : ℚ) - ymin) / dy) = cy := by
    rw [show (ymin + dy * (cy : ℚ) - ymin) / dy = cy by field_simp; ring]; exact roundHalfDown_int _
  have n3 : roundHalfDown ((g.t.x0 - xmin) / dx) = -p := by
    rw [show (g.t.x0 - xmin) / dx = ((-p : Int) : ℚ) by rw [hp]; push_cast; field_simp; ring]
    exact roundHalfDown_int _
  have n4 : roundHalfDown ((g.t.y0 - ymin) / dy) = -q := by
    rw [show (g.t.y0 - ymin) / dy = ((-q : Int) : ℚ) by rw [hq]; push_cast; field_simp; ring]
    exact roundHalfDown_int _
  have n5 : roundHalfDown ((xmin - g.t.x0) / dx) = p := by
    rw [show (xmin - g.t.x0) / dx = ((p : Int) : ℚ) by rw [hp]; field_simp; ring]
    exact roundHalfDown_int _
  have n6 : roundHalfDown ((ymin - g.t.y0) / dy) = q := by
    rw [show (ymin - g.t.y0) / dy = ((q : Int) : ℚ) by rw [hq]; field_simp; ring]
    exact roundHalfDown_int _
  have n7 : roundHalfDown ((xmin + dx * (cx : ℚ) - g.t.x0) / dx) = p + cx := by
    rw [show (xmin + dx * (cx : ℚ) - g.t.x0) / dx = ((p + cx : Int) : ℚ) by
      rw [hp]; push_cast; field_simp; ring]
    exact roundHalfDown_int _
  have n8 : roundHalfDown ((ymin + dy * (cy : ℚ) - g.t.y0) / dy) = q + cy := by
    rw [show (ymin + dy * (cy : ℚ) - g.t.y0) / dy = ((q + cy : Int) : ℚ) by
      rw [hq]; push_cast; field_simp; ring]
    exact roundHalfDown_int _
  obtain ⟨bs', Ps', e1, e2, e3, e4, e5⟩ := bands_mapM (H' := cy.toNat) (W' := cx.toNat)
    (R := fun P P' => ∀ y x : Int, P' y x =
      if max 0 (-q) ≤ y ∧ y < max 0 (-q) + (min (H : Int) (q + cy) - max 0 q) ∧
         max 0 (-p) ≤ x ∧ x < max 0 (-p) + (min (W : Int) (p + cx) - max 0 p)
      then P (max 0 q + (y - max 0 (-q))) (max 0 p + (x - max 0 (-p))) else g.nodata)
    (resizeBand garb g.nodata cy.toNat cx.toNat (max 0 (-q)) (max 0 (-p)) (max 0 q) (max 0 p)
      (min (H : Int) (q + cy) - max 0 q) (min (W : Int) (p + cx) - max 0 p)) hg.1
    (fun b P hb => resizeBand_spec hb garb g.nodata _ _ _ _ _ _ _ _
      (by refine ⟨?_, ?_, ?_, ?_, ?_, ?_⟩ <;> omega) (by refine ⟨?_, ?_, ?_, ?_, ?_, ?_⟩ <;> omega))
  refine ⟨⟨{ g.t with x0 := xmin, y0 := ymin }, bs', g.nodata⟩, cy.toNat, cx.toNat, Ps', ?_,
    ⟨e3, ?_⟩, rfl, e4, rfl, ?_, ?_, ?_, ?_, ?_⟩
  · unfold RGrid.resize
    rw [if_neg (by rintro (h | h); exacts [hdx.ne' h, hdy.ne' h])]
    simp only [hg.size, bbox_unskewed H W hdx hdy hsx hsy]
    simp only [← hdx', ← hdy', ← hcx, ← hcy, n1, n2, n3, n4, n5, n6, n7, n8]
    rw [if_neg (by omega), e1]
  · intro h
    simp only at h
    rw [h] at e2
    exact hg.2 (List.length_eq_zero_iff.1 e2.symm)
  · rw [show ((cx.toNat : Nat) : ℚ) = (cx : ℚ) by exact_mod_cast Int.toNat_of_nonneg cx0]; exact cx2
  · rw [show ((cx.toNat : Nat) : ℚ) = (cx : ℚ) by exact_mod_cast Int.toNat_of_nonneg cx0]; exact cx1
  · rw [show ((cy.toNat : Nat) : ℚ) = (cy : ℚ) by exact_mod_cast Int.toNat_of_nonneg cy0]; exact cy2
  · rw [show ((cy.toNat : Nat) : ℚ) = (cy : ℚ) by exact_mod_cast Int.toNat_of_nonneg cy0]; exact cy1
  · intro k P P' hP hP' y x hy hx
    have hv := e5 k P P' hP hP' y x
    have hcen : ∀ i j : Nat, centerCoord g.t i j =
        centerCoord { g.t with x0 := xmin, y0 := ymin } y x ↔ (i : Int) = q + y ∧ (j : Int) = p + x := by
      intro i j
      simp only [centerCoord, hsx, hsy, mul_zero, add_zero, Prod.mk.injEq, ← hdx', ← hdy', hp, hq]
      push_cast
      constructor
      · rintro ⟨h1, h2⟩
        have h1' : (j : ℚ) = p + x := mul_right_cancel₀ hdx.ne' (by linarith)
        have h2' : (i : ℚ) = q + y := mul_right_cancel₀ hdy.ne' (by linarith)
        exact ⟨by exact_mod_cast h2', by exact_mod_cast h1'⟩
      · rintro ⟨h2, h1⟩
        have h1' : (j : ℚ) = p + x := by exact_mod_cast h1
        have h2' : (i : ℚ) = q + y := by exact_mod_cast h2
        rw [h1', h2']
        constructor <;> ring
    constructor
    · intro i j hi hj hc
      obtain ⟨h1, h2⟩ := (hcen i j).1 hc
      rw [hv, if_pos (by omega)]
      congr 1 <;> omega
    · intro hno
      rw [hv, if_neg ?_]
      rintro ⟨c1, c2, c3, c4⟩
      exact hno (q + y).toNat (p + x).toNat (by omega) (by omega) ((hcen _ _).2 ⟨by omega, by omega⟩)

/-- C13 is violated by grids with negative row spacing (rows from north to south): resizing such a
grid to its own bounding box raises. -/
theorem C13_violated_negative_row_spacing {g : RGrid α} {H W : Nat} {Ps : List (Int → Int → α)}
    (_hg : g.Holds H W Ps) (garb : α) (hH : 0 < H) (hdx : 0 < g.t.dx) (hdy : g.t.dy < 0)
    (hsx : g.t.sx = 0) (hsy : g.t.sy = 0) :
    g.resize garb (bbox g.t H W).1 (bbox g.t H W).2.1 (bbox g.t H W).2.2.1 (bbox g.t H W).2.2.2 =
      .error .valueError := by
  have hb : (bbox g.t H W).2.1 = g.t.y0 + g.t.dy * H ∧ (bbox g.t H W).2.2.2 = g.t.y0 := by
    have b : g.t.dy * (H : ℚ) ≤ 0 := mul_nonpos_of_nonpos_of_nonneg hdy.le (by positivity)
    simp only [bbox, extent, Bool.false_eq_true, if_false, add_zero, hsx, hsy]
    rw [farBound_aligned (Or.inl rfl)]
    simp only [zero_mul, add_zero]
    rw [min_eq_right (by linarith), max_eq_left (by linarith)]
    exact ⟨rfl, rfl⟩
  unfold RGrid.resize
  rw [if_neg (by rintro (h | h); exacts [hdx.ne' h, hdy.ne h])]
  simp only [hb.1, hb.2]
  have n0 : ((g.t.y0 - (g.t.y0 + g.t.dy * H)) / g.t.dy : ℚ) = ((-H : Int) : ℚ) := by
    have := hdy.ne; push_cast; field_simp; ring
  rw [if_pos]
  right
  rw [n0, Int.ceil_intCast]
  have n1 : ((g.t.y0 + g.t.dy * H + g.t.dy * ((-H : Int) : ℚ) - (g.t.y0 + g.t.dy * H)) / g.t.dy : ℚ) =
      ((-H : Int) : ℚ) := by
    have := hdy.ne; push_cast; field_simp; ring
  rw [n1, roundHalfDown_int]
  omega

/-! ### C18 -/

theorem dataMaskFull_spec [DecidableEq α] {g : RGrid α} {H W : Nat} {Ps : List (Int → Int → α)}
    (hg : g.Holds H W Ps) (garb : α) :
    ∃ M, g.dataMaskFull garb = .ok M ∧ M.shape = [H, W, Ps.length] ∧
      ∀ (y x k : Nat) P, y < H → x < W → Ps[k]? = some P →
        M.get [y, x, k] = decide (P y x ≠ g.nodata) := by
  have hk : ∀ k : Nat, k ∈ List.range g.bands.length → ∃ A,
      Indexer.getitem g.bands (.slice .all) (.slice .all) (some (.int k)) = .ok A := by
    intro k hk
    have hk' : k < g.bands.length := List.mem_range.1 hk
    obtain ⟨A, e, -⟩ := getitem_spec hg.1 hg.2 (ky := .slice .all) (kx := .slice .all)
      (kb := some (.int k)) (bl := [(k : Int)]) (positions_all H) (positions_all W)
      (by simp [bandPositions, Spec.positions, hk']) (not_inverted_all H) (not_inverted_all W)
    exact ⟨A, e⟩
  obtain ⟨ms, e, l, hm⟩ := mapM_ok (fun (k : Nat) =>
    Indexer.getitem g.bands (.slice .all) (.slice .all) (some (.int k))) _ hk
  refine ⟨stackMask garb g.nodata g.size.1 g.size.2 ms, ?_, ?_, ?_⟩
  · unfold RGrid.dataMaskFull; rw [e]
  · simp only [stackMask, hg.size, l, List.length_range, hg.1.1]
  · intro y x k P hy hx hP
    have hk' : k < g.bands.length := by rw [hg.1.1]; exact (List.getElem?_eq_some_iff.1 hP).1
    obtain ⟨A, hA, hA2⟩ := hm k k (by simp [hk'])
    obtain ⟨A', e', -, v⟩ := getitem_spec hg.1 hg.2 (ky := .slice .all) (kx := .slice .all)
      (kb := some (.int k)) (bl := [(k : Int)]) (positions_all H) (positions_all W)
      (by simp [bandPositions, Spec.positions, hk']) (not_inverted_all H) (not_inverted_all W)
    rw [hA2] at e'
    cases e'
    have := v y x 0 y x k P (by simp [hy]) (by simp [hx]) rfl (by simpa using hP)
    change A.get [y, x] = _ at this
    simp only [stackMask, hA, this]
    rfl

/-- C18.  Changing the nodata value succeeds; in every band exactly the pixels equal to the old nodata
value become the new one and all others keep their value; and if no pixel holding data equals the new
value, the data masks before and after agree. -/
theorem C18_set_nodata [DecidableEq α] {g : RGrid α} {H W : Nat} {Ps : List (Int → Int → α)}
    (hg : g.Holds H W Ps) (garb val : α) :
    ∃ g' Ps', g.setNodata garb val = (g', none) ∧ g'.Holds H W Ps' ∧ Ps'.length = Ps.length ∧
      g'.t = g.t ∧ g'.nodata = val ∧
      (∀ (k : Nat) P P', Ps[k]? = some P → Ps'[k]? = some P' → ∀ y x : Nat, y < H → x < W →
        P' y x = if P y x = g.nodata then val else P y x) ∧
      ((∀ (k : Nat) P, Ps[k]? = some P → ∀ y x : Nat, y < H → x < W → P y x ≠ g.nodata → P y x ≠ val) →
        ∃ M M', g.dataMaskFull garb = .ok M ∧ g'.dataMaskFull garb = .ok M' ∧ M.shape = M'.shape ∧
          ∀ y x k : Nat, y < H → x < W → k < Ps.length → M.get [y, x, k] = M'.get [y, x, k]) := by
  obtain ⟨M, m1, m2, m3⟩ := dataMaskFull_spec hg garb
  obtain ⟨A, a1, a2, a3⟩ := getAll hg.1 hg.2
  have hs := setitem_spec hg.1 hg.2 (ky := .slice .all) (kx := .slice .all) (kb := some (.slice .all))
    (positions_all H) (positions_all W) (positions_all g.bands.length)
    (not_inverted_all H) (not_inverted_all W)
    ⟨true, ⟨A.shape, fun ix => if M.get ix then (A.get ix).getD garb else val⟩⟩
    (resolve_unit (by rintro s ⟨⟩; rfl)) (resolve_unit (by rintro s ⟨⟩; rfl))
  have hbc : broadcast ⟨true, ⟨A.shape, fun ix => if M.get ix then (A.get ix).getD garb else val⟩⟩
      ((List.range H).map fun (k : Nat) => (k : Int)).length ((List.range W).map fun (k : Nat) => (k : Int)).length
      ((List.range g.bands.length).map fun (k : Nat) => (k : Int)).length =
      some fun a b c => if M.get [if H = 1 then 0 else a, if W = 1 then 0 else b,
        if g.bands.length = 1 then 0 else c] then (A.get [if H = 1 then 0 else a, if W = 1 then 0 else b,
        if g.bands.length = 1 then 0 else c]).getD garb else val := by
    simp only [broadcast, a2, List.length_map, List.length_range, true_or, and_self, if_true]
  rw [hbc] at hs
  obtain ⟨bs', Ps', s1, s2, s3, s4, s5⟩ := hs
  have hg' : RGrid.Holds ({ g with bands := bs', nodata := val } : RGrid α) H W Ps' := by
    refine ⟨s3, ?_⟩
    intro h
    simp only at h
    rw [h] at s2
    exact hg.2 (List.length_eq_zero_iff.1 s2.symm)
  have hlen : Ps'.length = Ps.length := by rw [← s3.1, s2, hg.1.1]
  have hval : ∀ (k : Nat) P P', Ps[k]? = some P → Ps'[k]? = some P' → ∀ y x : Nat, y < H → x < W →
      P' y x = if P y x = g.nodata then val else P y x := by
    intro k P P' hP hP' y x hy hx
    have hk : k < g.bands.length := by rw [hg.1.1]; exact (List.getElem?_eq_some_iff.1 hP).1
    have h := s4 y x k y x k P' (by simp [hy]) (by simp [hx]) (by simp [hk]) (by simpa using hP')
    have f1 : (if H = 1 then 0 else y) = y := by split_ifs <;> omega
    have f2 : (if W = 1 then 0 else x) = x := by split_ifs <;> omega
    have f3 : (if g.bands.length = 1 then 0 else k) = k := by split_ifs <;> omega
    rw [h]
    simp only [f1, f2, f3, m3 y x k P hy hx hP, a3 y x k P hy hx hP]
    by_cases hc : P y x = g.nodata
    · simp [hc]
    · simp [hc]
  refine ⟨{ g with bands := bs', nodata := val }, Ps', ?_, hg', hlen, rfl, rfl, hval, ?_⟩
  · unfold RGrid.setNodata
    simp only [m1, a1, s1]
  · intro hno
    obtain ⟨M', m1', m2', m3'⟩ := dataMaskFull_spec hg' garb
    refine ⟨M, M', m1, m1', by rw [m2, m2', hlen], ?_⟩
    intro y x k hy hx hk
    obtain ⟨P, hP⟩ : ∃ P, Ps[k]? = some P := ⟨Ps[k], List.getElem?_eq_getElem hk⟩
    obtain ⟨P', hP'⟩ : ∃ P', Ps'[k]? = some P' := ⟨Ps'[k]'(by omega), List.getElem?_eq_getElem (by omega)⟩
    rw [m3 y x k P hy hx hP, m3' y x k P' hy hx hP', hval k P P' hP hP' y x hy hx]
    by_cases hc : P y x = g.nodata
    · simp [hc]
    · simp [hc, hno k P hP y x hy hx hc]

/-! ### The hypotheses can be met -/

/-- Every array makes a grid to which the theorems apply. -/
theorem fromValues_holds (zero garb : α) (t : Xform) (nd : α) (m n p : Nat) (hp : 0 < p)
    (V : Nat → Nat → Nat → α) :
    ∃ g Ps, fromValues zero garb t nd ⟨[m, n, p], fun
        | [y, x, k] => some (V y x k)
        | _ => none⟩ = .ok g ∧ g.t = t ∧ g.Holds m n Ps := by
  obtain ⟨g, Ps, e, h1, -, h2, -⟩ := fromValues_spec zero garb t nd ⟨[m, n, p], fun
        | [y, x, k] => some (V y x k)
        | _ => none⟩ m n p hp rfl V (by intros; rfl)
  exact ⟨g, Ps, e, h1, h2⟩

/-- A 5 × 7 grid of two bands with skew. -/
example : ∃ (g : RGrid Int) (Ps : List (Int → Int → Int)), g.Holds 5 7 Ps ∧ g.t.Regular ∧
    g.t.InGrid 5 7 (3, 3) ∧ g.t.InGrid 5 7 (4, 3) ∧ g.t.InGrid 5 7 (3, 4) ∧ g.t.InGrid 5 7 (4, 4) := by
  obtain ⟨g, Ps, -, ht, h⟩ := fromValues_holds (0 : Int) 0 ⟨0, 0, 1, 1, 1 / 4, 0⟩ (-9) 5 7 2 (by norm_num)
    (fun y x k => 100 * k + 10 * y + x)
  refine ⟨g, Ps, h, ?_, ?_, ?_, ?_, ?_⟩ <;> rw [ht]
  · constructor <;> norm_num
  · exact ⟨3, 9 / 4, by norm_num, by norm_num, by norm_num, by norm_num, by norm_num [Xform.at]⟩
  · exact ⟨3, 13 / 4, by norm_num, by norm_num, by norm_num, by norm_num, by norm_num [Xform.at]⟩
  · exact ⟨4, 2, by norm_num, by norm_num, by norm_num, by norm_num, by norm_num [Xform.at]⟩
  · exact ⟨4, 3, by norm_num, by norm_num, by norm_num, by norm_num, by norm_num [Xform.at]⟩

/-- The hypotheses of `C13_resize_partial` for a box overlapping two corners of a 5 × 7 grid, and those
of `C11_violated_default_on_small_grids` and `C13_violated_negative_row_spacing` for 2 × 3 grids. -/
example : ∃ (g : RGrid Int) (Ps : List (Int → Int → Int)), g.Holds 5 7 Ps ∧ 0 < g.t.dx ∧ 0 < g.t.dy ∧
    g.t.sx = 0 ∧ g.t.sy = 0 ∧ (-4 : ℚ) = g.t.x0 + ((-2 : Int) : ℚ) * g.t.dx ∧ (9 : ℚ) = g.t.y0 + ((3 : Int) : ℚ) * g.t.dy ∧
    (-4 : ℚ) < g.t.x0 + (7 : Nat) * g.t.dx ∧ g.t.x0 < 5 ∧ (9 : ℚ) < g.t.y0 + (5 : Nat) * g.t.dy ∧ g.t.y0 < 20 := by
  obtain ⟨g, Ps, -, ht, h⟩ := fromValues_holds (0 : Int) 0 ⟨0, 0, 2, 3, 0, 0⟩ (-9) 5 7 2 (by norm_num)
    (fun y x k => 100 * k + 10 * y + x)
  refine ⟨g, Ps, h, ?_⟩
  rw [ht]
  norm_num

example : ∃ (g : RGrid Int) (Ps : List (Int → Int → Int)), g.Holds 2 3 Ps ∧ 0 < g.t.dx ∧ g.t.dy < 0 ∧
    g.t.sx = 0 ∧ g.t.sy = 0 := by
  obtain ⟨g, Ps, -, ht, h⟩ := fromValues_holds (0 : Int) 0 ⟨0, 0, 2, -3, 0, 0⟩ (-9) 2 3 1 (by norm_num)
    (fun y x k => 100 * k + 10 * y + x)
  refine ⟨g, Ps, h, ?_⟩
  rw [ht]
  norm_num

/-- Clipping the example to its upper right cell. -/
example : seen (exGrid.map fun g => g.clip 0 0 (5 / 4) (7 / 4) (5 / 4) (7 / 4)) =
    some ((3 / 2, 3 / 2), some 11, (1, 1)) := by decide +kernel

/-- Changing the nodata value from 10 to 99 changes one pixel. -/
example : (exGrid.map fun g => ({ g with nodata := 10 } : RGrid Int).setNodata 0 99).toOption.map
    (fun r => (r.1.peek 0 0, r.1.peek 0 1, r.1.peek 1 0, r.1.peek 1 1, r.1.nodata)) =
    some (some 0, some 1, some 99, some 11, 99) := by decide +kernel

end Karta.Grid
