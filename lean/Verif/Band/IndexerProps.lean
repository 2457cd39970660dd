import Verif.Band.IndexerLemmas

/-!
# Properties C05–C08: indexing the bands of a grid

Vocabulary (file `Band/IndexerSpec.lean`): `Bands H W bands Ps` – the bands were reached by
arbitrary histories of in-range block writes and `Ps` are the images a plain array would
hold; `positions` – the rows/columns Python addresses; `keep` – axes kept in the result.
-/

namespace Karta.Band.Props
open Karta Karta.Band Karta.Band.Spec Karta.Band.Indexer

variable {α : Type _}

/-- **C05 (partial).** Full statement: reading with integer or slice keys returns exactly the
rows, columns and bands Python enumerates, in that order, each pixel of each selected band.
Proved for every key that addresses something in Python (in-range integers, all slices with
non-zero step) except slices running against their step; for those the code raises
(`C05_violated_inverted_slice`). -/
theorem C05_sliced_read_partial {H W : Nat} {bands : List (CBand α)} {Ps : List (Int → Int → α)}
    (hB : Bands H W bands Ps) (hne : bands ≠ [])
    (ky kx : Key) (kb : Option Key) (rows cols bnds : List Int)
    (hy : positions H ky = some rows) (hx : positions W kx = some cols)
    (hb : bandPositions bands.length kb = some bnds)
    (iy : ¬ Inverted H ky) (ix : ¬ Inverted W kx) :
    ∃ res, getitem bands ky kx kb = .ok res ∧
      res.shape = keep ky rows.length ++ keep kx cols.length ++ keepB kb bnds.length ∧
      ∀ a b c y x k P, rows[a]? = some y → cols[b]? = some x → bnds[c]? = some k →
        Ps[k.toNat]? = some P →
        res.get (keep ky a ++ keep kx b ++ keepB kb c) = some (P y x) :=
  getitem_spec hB hne hy hx hb iy ix

/-- **C05 (violated).** `grid[3:1, :]` is an empty selection in Python; the code raises
`ValueError` instead. -/
theorem C05_violated_inverted_slice :
    positions 5 (.slice ⟨some 3, some 1, none⟩) = some [] ∧
    ∃ e, getitem [CBand.new 5 4 2 2 (0 : Int)] (.slice ⟨some 3, some 1, none⟩) (.slice .all) none
      = .error e :=
  ⟨by decide, .valueError, rfl⟩

/-- **C05 (violated).** Row 7 of a five-row grid does not exist, yet reading it succeeds: the
key is reduced modulo the height. -/
theorem C05_violated_integer_out_of_range :
    positions 5 (.int 7) = none ∧
    ∃ res, getitem [CBand.new 5 4 2 2 (0 : Int)] (.int 7) (.slice .all) none = .ok res ∧
      res.shape = [4, 1] :=
  ⟨by decide, _, rfl, rfl⟩

/-- **C05 (integer keys).** Every integer row key is read as its remainder modulo the height,
so in-range negative integers count from the end as in Python. -/
theorem C05_integer_row_key_modulo (bands : List (CBand α)) (b0 : CBand α)
    (h0 : bands.head? = some b0) (hn : b0.ny ≠ 0) (i : Int) (kx : Key) (kb : Option Key) :
    getitem bands (.int i) kx kb = getitem bands (.int (i % (b0.ny : Int))) kx kb := by
  cases bands with
  | nil => rfl
  | cons b bs =>
    simp only [List.head?_cons, Option.some.injEq] at h0
    subst h0
    have e : (Key.int i).resolve b.ny = (Key.int (i % (b.ny : Int))).resolve b.ny := by
      simp [Key.resolve]
    simp only [getitem, e, Key.isInt]

/-- **C06 (main case).** Assigning through integer or unit-step slice keys: if the value
broadcasts to the selection, the call succeeds, the grid stays well-formed, the cell at
position `(a, b, c)` of the selection holds the broadcast value, and every other pixel of
every band keeps its value. -/
theorem C06_sliced_write {H W : Nat} {bands : List (CBand α)} {Ps : List (Int → Int → α)}
    (hB : Bands H W bands Ps) (hne : bands ≠ [])
    (ky kx : Key) (kb : Option Key) (rows cols bnds : List Int)
    (hy : positions H ky = some rows) (hx : positions W kx = some cols)
    (hb : bandPositions bands.length kb = some bnds)
    (iy : ¬ Inverted H ky) (ix : ¬ Inverted W kx)
    (uy : ∀ s, ky = .slice s → s.step.getD 1 = 1) (ux : ∀ s, kx = .slice s → s.step.getD 1 = 1)
    (v : Value α) (f : Nat → Nat → Nat → α)
    (hv : broadcast v rows.length cols.length bnds.length = some f) :
    ∃ bands' Ps', setitem bands ky kx kb v = (bands', none) ∧
      bands'.length = bands.length ∧ Bands H W bands' Ps' ∧
      (∀ a b c y x k P', rows[a]? = some y → cols[b]? = some x → bnds[c]? = some k →
        Ps'[k.toNat]? = some P' → P' y x = f a b c) ∧
      (∀ (k : Nat) P P' y x, Ps[k]? = some P → Ps'[k]? = some P' →
        ¬ ((k:Int) ∈ bnds ∧ y ∈ rows ∧ x ∈ cols) → P' y x = P y x) := by
  have := setitem_spec hB hne hy hx hb iy ix v (resolve_unit uy) (resolve_unit ux)
  rwa [hv] at this

/-- **C06 (refused values).** A value that does not broadcast to the selection is refused
with `ValueError` and nothing changes. -/
theorem C06_bad_shape_changes_nothing {H W : Nat} {bands : List (CBand α)}
    {Ps : List (Int → Int → α)} (hB : Bands H W bands Ps) (hne : bands ≠ [])
    (ky kx : Key) (kb : Option Key) (rows cols bnds : List Int)
    (hy : positions H ky = some rows) (hx : positions W kx = some cols)
    (hb : bandPositions bands.length kb = some bnds)
    (iy : ¬ Inverted H ky) (ix : ¬ Inverted W kx)
    (uy : ∀ s, ky = .slice s → s.step.getD 1 = 1) (ux : ∀ s, kx = .slice s → s.step.getD 1 = 1)
    (v : Value α) (hv : broadcast v rows.length cols.length bnds.length = none) :
    setitem bands ky kx kb v = (bands, some .valueError) := by
  have := setitem_spec hB hne hy hx hb iy ix v (resolve_unit uy) (resolve_unit ux)
  rwa [hv] at this

/-- **C06 (stepped slices).** A slice with a step other than one on rows or columns is
refused and nothing changes, whatever the value and the other keys. -/
theorem C06_stepped_refused (bands : List (CBand α)) (ky kx : Key) (kb : Option Key)
    (v : Value α) (s : Py.Slice) (hs : s.step.getD 1 ≠ 1) (hk : ky = .slice s ∨ kx = .slice s) :
    ∃ e, setitem bands ky kx kb v = (bands, some e) :=
  setitem_stepped bands ky kx kb v s hs hk

/-- **C06 (inverted slices).** A unit-step row slice whose bounds are inverted (`3:1`) is refused
and nothing changes. -/
theorem C06_inverted_refused {H W : Nat} {bands : List (CBand α)} {Ps : List (Int → Int → α)}
    (hB : Bands H W bands Ps) (s : Py.Slice) (kx : Key) (kb : Option Key)
    (v : Value α) (hinv : Inverted H (.slice s)) :
    ∃ e, setitem bands (.slice s) kx kb v = (bands, some e) :=
  setitem_inverted hB s kx kb v hinv

/-- **C06 (integer keys).** Every integer row key is taken modulo the height. -/
theorem C06_integer_row_key_modulo (bands : List (CBand α)) (b0 : CBand α)
    (h0 : bands.head? = some b0) (hn : b0.ny ≠ 0) (i : Int) (kx : Key) (kb : Option Key)
    (v : Value α) :
    setitem bands (.int i) kx kb v = setitem bands (.int (i % (b0.ny : Int))) kx kb v := by
  cases bands with
  | nil => rfl
  | cons b bs =>
    simp only [List.head?_cons, Option.some.injEq] at h0
    subst h0
    have e : (Key.int i).resolve b.ny = (Key.int (i % (b.ny : Int))).resolve b.ny := by
      simp [Key.resolve]
    simp only [setitem, e]

/-- **C07 (write).** Assigning through a boolean mask (2-D, or 3-D with one layer per band)
succeeds, keeps the grid well-formed, gives the `t`-th masked pixel (in row-major order) of
band `k` the `t`-th value meant for that band, and changes no other pixel.  `garb` is any
content of uninitialised memory. -/
theorem C07_mask_write {H W : Nat} {bands : List (CBand α)} {Ps : List (Int → Int → α)}
    (hB : Bands H W bands Ps) (garb : α) (M : Mask) (v : MValue α)
    (hM : MaskShape H W bands.length M)
    (ps : Nat → List (Nat × Nat)) (hps : ∀ k, k < bands.length → RowMajor (maskAt M k) (ps k))
    (hf : ∀ k, k < bands.length → MaskFits v bands.length (ps k).length) :
    ∃ bands' Ps', setMask garb M v 0 bands = (bands', none) ∧ bands'.length = bands.length ∧
      Bands H W bands' Ps' ∧
      (∀ (k : Nat) P', Ps'[k]? = some P' → ∀ (t y x : Nat) a, (ps k)[t]? = some (y, x) →
        maskValue v t k = some a → P' y x = a) ∧
      (∀ (k : Nat) P P', Ps[k]? = some P → Ps'[k]? = some P' →
        ∀ y x : Nat, ¬ Masked (maskAt M k) y x → P' y x = P y x) := by
  have hps' : ∀ k, k < bands.length → ps k = maskIdx (maskAt M k) :=
    fun k hk => rowMajor_unique (hps k hk) (maskIdx_rowMajor _)
  obtain ⟨bands', Ps', e1, e2, e3, e4, e5⟩ := setMask_spec garb M v bands.length hM
    (fun k hk => by rw [← hps' k hk]; exact hf k hk) bands Ps 0 hB (by omega)
  refine ⟨bands', Ps', e1, e2, e3, ?_, ?_⟩
  · intro k P' hP' t y x a ht
    have hk : k < bands.length := by
      rw [← e2, e3.1]; by_contra hc; rw [List.getElem?_eq_none (by omega)] at hP'; cases hP'
    rw [hps' k hk] at ht
    have := e4 k P' hP' t y x a
    rw [Nat.zero_add] at this
    exact this ht
  · intro k P P' h1 h2 y x hn
    have := e5 k P P' h1 h2 y x
    rw [Nat.zero_add] at this
    exact this hn

/-- **C07 (read, 2-D mask).** Reading through a 2-D mask lists the masked pixels in row-major
order, one row per pixel and one column per band. -/
theorem C07_mask_read {H W : Nat} {bands : List (CBand α)} {Ps : List (Int → Int → α)}
    (hB : Bands H W bands Ps) (hne : bands ≠ []) (m : Arr Bool) (h1 : m.ny = H) (h2 : m.nx = W)
    (ps : List (Nat × Nat)) (hps : RowMajor m ps) :
    ∃ res, getMask2 bands m = .ok res ∧ res.shape = [ps.length, bands.length] ∧
      ∀ (t y x k : Nat) P, ps[t]? = some (y, x) → Ps[k]? = some P →
        res.get [t, k] = some (P y x) := by
  rw [rowMajor_unique hps (maskIdx_rowMajor m)]
  exact getMask2_spec hB hne m h1 h2

/-- **C07 (round trip, 2-D mask).** Writing one value per masked pixel and band and reading
back through the same mask returns the values written. -/
theorem C07_mask_round_trip {H W : Nat} {bands : List (CBand α)} {Ps : List (Int → Int → α)}
    (hB : Bands H W bands Ps) (hne : bands ≠ []) (garb : α) (m : Arr Bool)
    (h1 : m.ny = H) (h2 : m.nx = W)
    (ps : List (Nat × Nat)) (hps : RowMajor m ps) (vals : List (List α))
    (hl : vals.length = ps.length) (hw : ∀ r ∈ vals, r.length = bands.length) :
    ∃ bands' res, setMask garb (.two m) (.mat bands.length vals) 0 bands = (bands', none) ∧
      getMask2 bands' m = .ok res ∧ res.shape = [ps.length, bands.length] ∧
      ∀ (t k : Nat), t < ps.length → k < bands.length →
        res.get [t, k] = (vals[t]?).bind (·[k]?) := by
  obtain ⟨bands', Ps', e1, e2, e3, e4, -⟩ := C07_mask_write hB garb (.two m)
    (.mat bands.length vals) ⟨fun k _ => ⟨h1, h2⟩, trivial⟩ (fun _ => ps) (fun _ _ => hps)
    (fun k _ => ⟨le_rfl, hw, Or.inl hl⟩)
  obtain ⟨res, g1, g2, g3⟩ := C07_mask_read e3 (by
    intro h; rw [h] at e2; exact hne (List.eq_nil_of_length_eq_zero e2.symm)) m h1 h2 ps hps
  refine ⟨bands', res, e1, g1, by rw [g2, e2], ?_⟩
  intro t k ht hk
  have hk' : k < Ps'.length := by rw [← e3.1, e2]; exact hk
  have ht' : t < vals.length := by omega
  have hrk : k < vals[t].length := by rw [hw _ (List.getElem_mem _)]; exact hk
  rw [g3 t ps[t].1 ps[t].2 k Ps'[k] (by simp [ht]) (by simp [hk'])]
  have hval : ((vals[t]?).bind (·[k]?)) = some vals[t][k] := by simp [ht', hrk]
  rw [hval]
  congr 1
  refine e4 k Ps'[k] (by simp [hk']) t ps[t].1 ps[t].2 _ (by simp [ht]) ?_
  simp only [maskValue]
  by_cases h1 : vals.length = 1
  · have : t = 0 := by omega
    subst this
    rw [if_pos h1]; exact hval
  · rw [if_neg h1]; exact hval

/-- **C07 (violated, 3-D mask).** Assigning through a 3-D mask exactly what was read through
it fails on a two-band grid: the read lists the pixels of both bands (two values), the write
wants one value per masked pixel of a single band. -/
theorem C07_violated_three_d_round_trip :
    let bands := [CBand.new 1 1 2 2 (5 : Int), CBand.new 1 1 2 2 (6 : Int)]
    let m : Nat → Arr Bool := fun _ => ⟨1, 1, fun _ _ => true⟩
    getMask3 bands 1 1 2 m = .ok [some 5, some 6] ∧
    (setMask 0 (.three 2 m) (.vec [5, 6]) 0 bands).2 = some .valueError :=
  ⟨rfl, rfl⟩

/-- Specification: `ps` lists the cells `(row, column, band)` whose value in a 3-D mask of shape
`(H, W, N)` is `True`, in row-major order; `m k` is the mask of band `k`. -/
def RowMajor3 (H W N : Nat) (m : Nat → Arr Bool) (ps : List (Nat × Nat × Nat)) : Prop :=
  (∀ y x k : Nat, (y, x, k) ∈ ps ↔ y < H ∧ x < W ∧ k < N ∧ (m k).get y x = true) ∧
  ps.Pairwise fun p q => p.1 < q.1 ∨ (p.1 = q.1 ∧ (p.2.1 < q.2.1 ∨ (p.2.1 = q.2.1 ∧ p.2.2 < q.2.2)))

theorem maskIdx3_rowMajor (H W N : Nat) (m : Nat → Arr Bool) :
    RowMajor3 H W N m (maskIdx3 H W N m) := by
  refine ⟨?_, ?_⟩
  · intro y x k
    simp only [maskIdx3, List.mem_flatMap, List.mem_range, List.mem_map, List.mem_filter,
      Prod.mk.injEq]
    constructor
    · rintro ⟨a, ha, b, hb, c, ⟨hc, hm⟩, rfl, rfl, rfl⟩; exact ⟨ha, hb, hc, hm⟩
    · rintro ⟨ha, hb, hc, hm⟩; exact ⟨y, ha, x, hb, k, ⟨hc, hm⟩, rfl, rfl, rfl⟩
  · unfold maskIdx3
    rw [List.pairwise_flatMap]
    constructor
    · intro y _
      rw [List.pairwise_flatMap]
      constructor
      · intro x _
        rw [List.pairwise_map]
        refine List.Pairwise.imp ?_ (List.Pairwise.filter _ List.pairwise_lt_range)
        intro a b h; exact Or.inr ⟨rfl, Or.inr ⟨rfl, h⟩⟩
      · refine List.Pairwise.imp ?_ List.pairwise_lt_range
        intro a b hab p hp q hq
        simp only [List.mem_map, List.mem_filter] at hp hq
        obtain ⟨_, _, rfl⟩ := hp
        obtain ⟨_, _, rfl⟩ := hq
        exact Or.inr ⟨rfl, Or.inl hab⟩
    · refine List.Pairwise.imp ?_ List.pairwise_lt_range
      intro a b hab p hp q hq
      simp only [List.mem_flatMap, List.mem_map, List.mem_filter] at hp hq
      obtain ⟨_, _, _, _, rfl⟩ := hp
      obtain ⟨_, _, _, _, rfl⟩ := hq
      exact Or.inl hab

theorem rowMajor3_unique {H W N : Nat} {m : Nat → Arr Bool} {p q : List (Nat × Nat × Nat)}
    (hp : RowMajor3 H W N m p) (hq : RowMajor3 H W N m q) : p = q := by
  have irr : ∀ l : List (Nat × Nat × Nat), (l.Pairwise fun p q => p.1 < q.1 ∨ (p.1 = q.1 ∧
      (p.2.1 < q.2.1 ∨ (p.2.1 = q.2.1 ∧ p.2.2 < q.2.2)))) → l.Nodup := by
    intro l h
    refine List.Pairwise.imp ?_ h
    rintro a b h rfl
    omega
  have hperm : p.Perm q := by
    rw [List.perm_ext_iff_of_nodup (irr p hp.2) (irr q hq.2)]
    rintro ⟨y, x, k⟩
    rw [hp.1, hq.1]
  refine hperm.eq_of_pairwise ?_ hp.2 hq.2
  rintro ⟨a, b, c⟩ ⟨a', b', c'⟩ - - h h'
  simp only at h h'
  omega

/-- **C07 (partial, 3-D mask).** The part of the 3-D mask claim that holds besides
`C07_mask_write`: a 3-D mask read lists the masked pixels in row-major order, each with its
value in its band, and nothing else. -/
theorem C07_three_d_mask_read_partial {H W : Nat} {bands : List (CBand α)}
    {Ps : List (Int → Int → α)} (hB : Bands H W bands Ps) (hne : bands ≠ []) (m : Nat → Arr Bool)
    (idx : List (Nat × Nat × Nat)) (hidx : RowMajor3 H W bands.length m idx) :
    ∃ res, getMask3 bands H W bands.length m = .ok res ∧ res.length = idx.length ∧
      ∀ (t y x k : Nat) P, idx[t]? = some (y, x, k) →
        Ps[k]? = some P → res[t]? = some (some (P y x)) := by
  rw [rowMajor3_unique hidx (maskIdx3_rowMajor H W bands.length m)]
  exact getMask3_spec hB hne m

/-- **C08.** Iterating a grid yields one item per row, in order; item `i` holds row `i` of
every band (one line per band). -/
theorem C08_iteration_yields_rows {H W : Nat} {bands : List (CBand α)}
    {Ps : List (Int → Int → α)} (hB : Bands H W bands Ps) (hne : bands ≠ []) :
    ∃ items, iter bands = .ok items ∧ items.length = H ∧
      ∀ (i : Nat) A, items[i]? = some A → A.ny = bands.length ∧ A.nx = W ∧
        ∀ (k c : Nat) P, Ps[k]? = some P → c < W → A.get k c = some (P i c) :=
  iter_spec hB hne

/-! ### Non-vacuity -/

/-- A two-band 5×7 grid, the second band written once across chunk borders. -/
def exBands : List (CBand Int) :=
  [CBand.new 5 7 2 3 0, (CBand.setblock (CBand.new 5 7 4 4 (9:Int)) 1 2 ⟨3, 4, fun r c => (10*r+c : Int)⟩).1]

def exImages : List (Int → Int → Int) :=
  [fun _ _ => 0, fun y x =>
    if (⟨1, 2, ⟨3, 4, fun r c => (10*r+c : Int)⟩⟩ : Write Int).Covers y x then
      (⟨1, 2, ⟨3, 4, fun r c => (10*r+c : Int)⟩⟩ : Write Int).valueAt y x else 9]

theorem exBands_ok : Bands 5 7 exBands exImages := by
  refine ⟨rfl, ?_⟩
  intro k b P h1 h2
  match k with
  | 0 =>
    simp only [exBands, exImages, List.getElem?_cons_zero, Option.some.injEq] at h1 h2
    subst h1 h2
    exact .new 2 3 (by decide) (by decide) 0
  | 1 =>
    simp only [exBands, exImages, List.getElem?_cons_succ, List.getElem?_cons_zero,
      Option.some.injEq] at h1 h2
    subst h1 h2
    exact .write ⟨1, 2, ⟨3, 4, fun r c => (10*r+c : Int)⟩⟩ (by simp [Write.Fits, InRange])
      (.new 4 4 (by decide) (by decide) 9) rfl
  | k + 2 => simp [exBands] at h1

example : positions 5 (.slice ⟨none, some (-9), some (-2)⟩) = some [4, 2, 0] ∧
    positions 7 (.int (-2)) = some [5] ∧ bandPositions 2 none = some [0, 1] := by decide
example : ¬ Inverted 5 (.slice ⟨none, some (-9), some (-2)⟩) := by
  simp [Inverted, Py.Slice.indices, Py.adjust]
example : (getitem exBands (.slice ⟨none, some (-9), some (-2)⟩) (.int (-2)) none).toOption.map
    (fun r => (r.shape, r.get [1, 1])) = some ([3, 2], some 13) := by decide
example : (broadcast (⟨true, ⟨[3], fun i => (i.head?.getD 0 : Int)⟩⟩ : Value Int) 2 3 2).isSome := by
  decide
example : RowMajor (⟨2, 2, fun y x => y == x⟩ : Arr Bool) [(0,0), (1,1)] := maskIdx_rowMajor _

/-- C06 applied to the example: rows 1 and 2, columns 2 to 4, both bands. -/
example : ∃ f, broadcast (⟨true, ⟨[3], fun i => (i.head?.getD 0 : Int)⟩⟩ : Value Int) 2 3 2 = some f ∧
    ∃ bands', setitem exBands (.slice ⟨some 1, some 3, none⟩) (.slice ⟨some 2, some (-2), none⟩) none
      ⟨true, ⟨[3], fun i => (i.head?.getD 0 : Int)⟩⟩ = (bands', none) := by
  obtain ⟨f, hf⟩ := Option.isSome_iff_exists.1
    (show (broadcast (⟨true, ⟨[3], fun i => (i.head?.getD 0 : Int)⟩⟩ : Value Int) 2 3 2).isSome by decide)
  obtain ⟨bands', -, h, -⟩ := C06_sliced_write exBands_ok (by simp [exBands]) (.slice ⟨some 1, some 3, none⟩)
    (.slice ⟨some 2, some (-2), none⟩) none [1, 2] [2, 3, 4] [0, 1] (by decide) (by decide) (by decide)
    (by simp [Inverted, Py.Slice.indices, Py.adjust]) (by simp [Inverted, Py.Slice.indices, Py.adjust])
    (by intro s h; cases h; rfl) (by intro s h; cases h; rfl) _ f hf
  exact ⟨f, hf, bands', h⟩
example := C06_bad_shape_changes_nothing exBands_ok (by simp [exBands]) (.slice ⟨some 1, some 3, none⟩)
    (.slice ⟨some 2, some (-2), none⟩) none [1, 2] [2, 3, 4] [0, 1] (by decide) (by decide) (by decide)
    (by simp [Inverted, Py.Slice.indices, Py.adjust]) (by simp [Inverted, Py.Slice.indices, Py.adjust])
    (by intro s h; cases h; rfl) (by intro s h; cases h; rfl) ⟨true, ⟨[4], fun _ => (0 : Int)⟩⟩ (by decide)

/-- C07 applied to the example: the diagonal. -/
example := C07_mask_read exBands_ok (by simp [exBands]) ⟨5, 7, fun y x => y == x⟩ rfl rfl _ (maskIdx_rowMajor _)
example := C07_mask_round_trip exBands_ok (by simp [exBands]) 0 ⟨5, 7, fun y x => y == x⟩ rfl rfl [(0, 0), (1, 1), (2, 2), (3, 3), (4, 4)]
  (maskIdx_rowMajor _) [[1, 2], [3, 4], [5, 6], [7, 8], [9, 10]] (by decide) (by decide)
example := C07_mask_write exBands_ok 0 (.two ⟨5, 7, fun y x => y == x⟩) (.vec [4]) ⟨fun _ _ => ⟨rfl, rfl⟩, trivial⟩
  (fun _ => [(0, 0), (1, 1), (2, 2), (3, 3), (4, 4)]) (fun _ _ => maskIdx_rowMajor _) (fun _ _ => Or.inr rfl)
/-- C07 applied to the example: one cell of the first band and two of the second. -/
example := C07_three_d_mask_read_partial exBands_ok (by simp [exBands])
  (fun k => ⟨5, 7, fun y x => y == 2 && x == 3 || k == 1 && y == 0 && x == 6⟩) _ (maskIdx3_rowMajor _ _ _ _)

end Karta.Band.Props
