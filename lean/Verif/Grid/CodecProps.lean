import Verif.Grid.Codec
import Verif.Grid.WindowLemmas
import Mathlib.Tactic.Linarith
import Mathlib.Tactic.LinearCombination
import Mathlib.Tactic.FieldSimp

/-!
Properties C21-C23 and C67-C70: raster files.
-/

namespace Karta.Grid
open Karta Karta.Band Karta.Band.Spec Karta.Band.Indexer Karta.Py

variable {α : Type _}

/-! ### C21: ASCII grids

Specification of the file format (ESRI): the header gives the cell size and either the outer corner of
the lower left cell or its centre; the data lines follow from the top row of the grid to the bottom row.
-/

/-- The header ends up saying `v` under the keyword `k`: the last record of that keyword carries `v`. -/
def Says (hdr : List (HKey × Option ℚ)) (k : HKey) (v : Option ℚ) : Prop :=
  ∃ pre post, hdr = pre ++ (k, v) :: post ∧ ∀ e ∈ post, e.1 ≠ k

/-- The header has no record of the keyword `k`. -/
def Silent (hdr : List (HKey × Option ℚ)) (k : HKey) : Prop := ∀ e ∈ hdr, e.1 ≠ k

/-- Along one axis, the header places the outer corner of the first cell at `c`. -/
def Places (hdr : List (HKey × Option ℚ)) (center corner : HKey) (d c : ℚ) : Prop :=
  Says hdr center (some (c + d / 2)) ∨ (Silent hdr center ∧ Says hdr corner (some c))

/-- The header declares (or leaves at its default) the number that stands for missing data. -/
def Missing (hdr : List (HKey × Option ℚ)) (nd : Option ℚ) : Prop :=
  Says hdr .nodata nd ∨ (Silent hdr .nodata ∧ nd = some (-9999))

/-- The lines of a file with the given header and data rows. -/
def fileLines (hdr : List (HKey × Option ℚ)) (rows : List (List (Option ℚ))) : List (List Tok) :=
  hdr.map (fun e => [.key e.1, .num e.2]) ++ rows.map fun r => r.map .num

theorem hdrGet_says {hdr : List (HKey × Option ℚ)} {k : HKey} {v : Option ℚ} (h : Says hdr k v) :
    hdrGet hdr k = some v := by
  obtain ⟨pre, post, rfl, hp⟩ := h
  unfold hdrGet
  rw [List.reverse_append, List.reverse_cons, List.append_assoc, List.find?_append]
  have : (post.reverse.find? fun e => decide (e.1 = k)) = none := by
    rw [List.find?_eq_none]
    intro e he
    simpa using hp e (List.mem_reverse.1 he)
  rw [this]
  simp

theorem hdrGet_silent {hdr : List (HKey × Option ℚ)} {k : HKey} (h : Silent hdr k) : hdrGet hdr k = none := by
  unfold hdrGet
  have : (hdr.reverse.find? fun e => decide (e.1 = k)) = none := by
    rw [List.find?_eq_none]
    intro e he
    simpa using h e (List.mem_reverse.1 he)
  rw [this]; rfl

theorem cornerRef_places {hdr : List (HKey × Option ℚ)} {a b : HKey} {d c : ℚ} (h : Places hdr a b d c) :
    cornerRef d (hdrGet hdr a) (hdrGet hdr b) = .ok c := by
  rcases h with h | ⟨h1, h2⟩
  · rw [hdrGet_says h]; simp [cornerRef]
  · rw [hdrGet_silent h1, hdrGet_says h2]; simp [cornerRef]

theorem countHeader_file (hdr : List (HKey × Option ℚ)) (l : List Tok) (ls : List (List Tok)) (t : Tok)
    (ts : List Tok) (hl : l = t :: ts) (ht : ∀ k, t ≠ .key k) :
    countHeader (hdr.map (fun e => [.key e.1, .num e.2]) ++ l :: ls) = .ok hdr.length := by
  induction hdr with
  | nil =>
    subst hl
    cases t with
    | key k => exact absurd rfl (ht k)
    | num v => rfl
    | junk => rfl
  | cons e es ih =>
    simp only [List.map_cons, List.cons_append, countHeader, ih, List.length_cons]

theorem mapM_header (hdr : List (HKey × Option ℚ)) :
    (hdr.map (fun e => ([.key e.1, .num e.2] : List Tok))).mapM headerEntry = .ok hdr := by
  induction hdr with
  | nil => rfl
  | cons e es ih =>
    rw [List.map_cons, List.mapM_cons, ih]
    rfl

theorem mapM_nums (r : List (Option ℚ)) : (r.map Tok.num).mapM Tok.float = .ok r := by
  induction r with
  | nil => rfl
  | cons e es ih =>
    rw [List.map_cons, List.mapM_cons, ih]
    rfl

theorem mapM_rows (rows : List (List (Option ℚ))) :
    (rows.map fun r => r.map Tok.num).mapM (fun l => l.mapM Tok.float) = .ok rows := by
  induction rows with
  | nil => rfl
  | cons e es ih =>
    rw [List.map_cons, List.mapM_cons, ih, mapM_nums]
    rfl

theorem fromValues2_spec (zero garb : α) (t : Xform) (nd : α) (A : NdArr (Option α)) (m n : Nat)
    (hs : A.shape = [m, n]) (V : Nat → Nat → α)
    (hV : ∀ y x, y < m → x < n → A.get [y, x] = some (V y x)) :
    ∃ g P, fromValues zero garb t nd A = .ok g ∧ g.t = t ∧ g.nodata = nd ∧ g.Holds m n [P] ∧
      ∀ y x : Nat, y < m → x < n → P y x = V y x := by
  obtain ⟨b, P, e, hr, hv⟩ := mkBand_spec zero (⟨m, n, fun r c => (A.get [r, c]).getD garb⟩ : Arr α)
  refine ⟨⟨t, [b], nd⟩, P, ?_, rfl, rfl, ⟨⟨rfl, ?_⟩, by simp⟩, ?_⟩
  · unfold fromValues; rw [hs]; simp only [e]
  · intro k b' P' hb hP
    cases k with
    | zero => simp at hb hP; subst hb hP; exact hr
    | succ k => simp at hb
  · intro y x hy hx
    rw [hv y x hy hx]
    simp only [hV y x hy hx, Option.getD_some]

/-- **C21 (partial).**  Reading a well-formed ASCII grid file -- header records in any order, corner or
centre reference, any number of rows and columns -- returns the grid the file describes: square cells of
the given size without skew, the lower left corner where the header puts it, the first data line as the
*last* (top) row, and missing data as NaN.  Missing from the English property: files written by `to_aai`
are not well-formed, see `C21_violated_unreadable`. -/
theorem C21_reads_esri_files_partial (hdr : List (HKey × Option ℚ)) (rows : List (List (Option ℚ)))
    (d x0 y0 nc nr : ℚ) (nd : Option ℚ) (W : Nat) (hW : 0 < W) (hrows : rows ≠ [])
    (hlen : ∀ r ∈ rows, r.length = W)
    (hc : Says hdr .ncols (some nc)) (hr : Says hdr .nrows (some nr)) (hd : Says hdr .cellsize (some d))
    (hx : Places hdr .xllcenter .xllcorner d x0) (hy : Places hdr .yllcenter .yllcorner d y0)
    (hn : Missing hdr nd) :
    ∃ g P, readAai (fileLines hdr rows) = .ok g ∧ g.t = ⟨x0, y0, d, d, 0, 0⟩ ∧ g.nodata = none ∧
      g.Holds rows.length W [P] ∧
      ∀ (k c : Nat) (row : List (Option ℚ)) (v : Option ℚ), rows[k]? = some row → row[c]? = some v →
        P ((rows.length : Int) - 1 - k) c = if v = nd then none else v := by
  obtain ⟨r0, rs, rfl⟩ := List.exists_cons_of_ne_nil hrows
  have hr0 : r0.length = W := hlen r0 (by simp)
  obtain ⟨v0, vs, rfl⟩ := List.exists_cons_of_ne_nil (l := r0) (by intro h; rw [h] at hr0; simp at hr0; omega)
  have hcount : countHeader (fileLines hdr ((v0 :: vs) :: rs)) = .ok hdr.length := by
    unfold fileLines
    rw [List.map_cons]
    exact countHeader_file hdr _ _ (.num v0) (vs.map .num) rfl (by intro k; simp)
  have htake : (fileLines hdr ((v0 :: vs) :: rs)).take hdr.length = hdr.map fun e => [.key e.1, .num e.2] := by
    unfold fileLines
    rw [List.take_append_of_le_length (by simp), List.take_of_length_le (by simp)]
  have hdrop : (fileLines hdr ((v0 :: vs) :: rs)).drop hdr.length = ((v0 :: vs) :: rs).map fun r => r.map Tok.num := by
    unfold fileLines
    rw [List.drop_append_of_le_length (by simp), List.drop_of_length_le (by simp), List.nil_append]
  have hnd : (hdrGet hdr .nodata).getD (some (-9999)) = nd := by
    rcases hn with h | ⟨h, rfl⟩
    · rw [hdrGet_says h]; rfl
    · rw [hdrGet_silent h]; rfl
  have ht : aaiTransform hdr = .ok ⟨x0, y0, d, d, 0, 0⟩ := by
    unfold aaiTransform
    rw [hdrGet_says hd]
    simp only [cornerRef_places hx, cornerRef_places hy]
  set rows := (v0 :: vs) :: rs with hrw
  have hga : gridArray rows =
      .ok ⟨rows.length, W, fun y x => (((rows[y]?).bind fun r => r[x]?).getD none)⟩ := by
    rw [hrw]
    simp only [gridArray]
    rw [if_pos, hr0]
    rw [List.all_eq_true]
    intro r hr'
    have h1 := hlen r hr'
    simpa [h1] using hr0.symm
  clear_value rows
  set a : Arr (Option ℚ) := ⟨rows.length, W, fun y x => (((rows[y]?).bind fun r => r[x]?).getD none)⟩ with ha
  obtain ⟨g, P, e1, e2, e3, e4, e5⟩ := fromValues2_spec (some 0) none (⟨x0, y0, d, d, 0, 0⟩ : Xform) none
    (aaiValues nd a) rows.length W rfl
    (fun y x => if a.get (rows.length - 1 - y) x = nd then none else a.get (rows.length - 1 - y) x)
    (fun y x _ _ => rfl)
  refine ⟨g, P, ?_, e2, e3, e4, ?_⟩
  · unfold readAai
    rw [hcount]
    simp only [htake, hdrop, mapM_header, mapM_rows, hga, ht, hnd, intEntry, hdrGet_says hc, hdrGet_says hr]
    exact e1
  · intro k c row v hk hv
    have hkl : k < rows.length := (List.getElem?_eq_some_iff.1 hk).1
    have hcw : c < W := by
      rw [← hlen row (List.mem_of_getElem? hk)]; exact (List.getElem?_eq_some_iff.1 hv).1
    have := e5 (rows.length - 1 - k) c (by omega) hcw
    rw [show ((rows.length - 1 - k : Nat) : Int) = (rows.length : Int) - 1 - k by omega] at this
    rw [this, show rows.length - 1 - (rows.length - 1 - k) = k by omega]
    have : a.get k c = v := by rw [ha]; simp [hk, hv]
    rw [this]

/-- Non-vacuity of the hypotheses, and the value read: a 2 × 3 file with a centre reference. -/
example : Says [(HKey.ncols, some 3), (.nrows, some 2), (.xllcenter, some 5), (.yllcorner, some 7),
      (.cellsize, some 2)] .xllcenter (some ((4 : ℚ) + 2 / 2)) ∧
    Silent [(HKey.ncols, some (3 : ℚ)), (.nrows, some 2), (.xllcenter, some 5), (.yllcorner, some 7),
      (.cellsize, some 2)] .nodata := by
  constructor
  · exact ⟨[(.ncols, some 3), (.nrows, some 2)], [(.yllcorner, some 7), (.cellsize, some 2)],
      by norm_num, by simp⟩
  · simp [Silent]

/-! The writer. -/

theorem mapM_error {β γ : Type _} (f : β → Except Err γ) (e : Err) (l : List β)
    (h : ∀ x ∈ l, (∃ y, f x = .ok y) ∨ f x = .error e) (hx : ∃ x ∈ l, f x = .error e) :
    l.mapM f = .error e := by
  induction l with
  | nil => obtain ⟨x, hx, -⟩ := hx; simp at hx
  | cons a l ih =>
    rw [List.mapM_cons]
    rcases h a (by simp) with ⟨y, hy⟩ | hy
    · have hl : ∃ x ∈ l, f x = .error e := by
        obtain ⟨x, hx, hxe⟩ := hx
        rcases List.mem_cons.1 hx with rfl | hx
        · rw [hy] at hxe; cases hxe
        · exact ⟨x, hx, hxe⟩
      rw [hy, ih (fun x hx => h x (by simp [hx])) hl]; rfl
    · rw [hy]; rfl

theorem float_cases (t : Tok) : (∃ y, t.float = .ok y) ∨ t.float = .error .valueError := by
  cases t with
  | key k => exact .inr rfl
  | num v => exact .inl ⟨v, rfl⟩
  | junk => exact .inr rfl

theorem mapM_float_junk {l : List Tok} (h : Tok.junk ∈ l) : l.mapM Tok.float = .error .valueError :=
  mapM_error _ _ _ (fun x _ => float_cases x) ⟨_, h, rfl⟩

theorem bracketed_cons (l : List (Option ℚ)) : ∃ ts, bracketed l = .junk :: ts := by
  cases l with
  | nil => exact ⟨_, rfl⟩
  | cons a l => cases l <;> exact ⟨_, rfl⟩

/-- **C21 (violated).**  No file that `to_aai` writes can be read back: for every grid with at least one
row and column, whatever its values, number of bands, reference and nodata value, if `to_aai` succeeds
then `read_aai` of the file raises `ValueError`.  (`self[:,:]` always has a band axis, so every pixel is
printed with its own brackets.) -/
theorem C21_violated_unreadable (g : RGrid (Option ℚ)) (H W : Nat) (Ps : List (Int → Int → Option ℚ))
    (hg : g.Holds H W Ps) (hH : 0 < H) (hW : 0 < W) (center : Bool) (nd : Option ℚ)
    (file : List (List Tok)) (h : g.toAai center nd = .ok file) :
    readAai file = .error .valueError := by
  unfold RGrid.toAai at h
  by_cases h1 : g.t.dx ≠ g.t.dy
  · rw [if_pos h1] at h; cases h
  rw [if_neg h1] at h
  by_cases h2 : g.t.sx ≠ g.t.sy ∧ g.t.sy ≠ 0
  · rw [if_pos h2] at h; cases h
  rw [if_neg h2] at h
  obtain ⟨A, e, hs, -⟩ := getitem_spec hg.1 hg.2 (kb := none) (positions_all H) (positions_all W) rfl
    (not_inverted_all H) (not_inverted_all W)
  rw [e] at h
  simp only [keep, keepB, Key.isInt, Option.map_none, Option.getD_none, Bool.false_eq_true, if_false,
    List.cons_append, List.nil_append, List.length_map, List.length_range] at hs
  simp only [Except.ok.injEq] at h
  -- the data lines
  obtain ⟨l0, ls, ts, hlines, hl0, hmapM⟩ : ∃ l0 ls ts, dataLines nd A = l0 :: ls ∧ l0 = Tok.junk :: ts ∧
      (l0 :: ls).mapM (fun l => l.mapM Tok.float) = .error .valueError := by
    have hrow : ∀ r : Nat, ∃ ts, ((List.range W).flatMap fun c =>
        bracketed ((List.range g.bands.length).map fun k =>
          (fun (o : Option (Option ℚ)) => if (o.getD none) = none then nd else o.getD none) (A.get [r, c, k])))
        = Tok.junk :: ts := by
      intro r
      obtain ⟨w, rfl⟩ : ∃ w, W = w + 1 := ⟨W - 1, by omega⟩
      rw [List.range_succ_eq_map, List.flatMap_cons]
      obtain ⟨ts, hts⟩ := bracketed_cons ((List.range g.bands.length).map fun k =>
          (fun (o : Option (Option ℚ)) => if (o.getD none) = none then nd else o.getD none) (A.get [r, 0, k]))
      rw [hts]
      exact ⟨_, rfl⟩
    obtain ⟨m, rfl⟩ : ∃ m, H = m + 1 := ⟨H - 1, by omega⟩
    choose tsf htsf using hrow
    have hd : dataLines nd A = (List.range (m + 1)).map fun r => Tok.junk :: tsf r := by
      unfold dataLines
      rw [hs]
      simp only
      exact List.map_congr_left fun r _ => htsf r
    rw [List.range_succ_eq_map, List.map_cons] at hd
    refine ⟨_, _, _, hd, rfl, ?_⟩
    apply mapM_error
    · intro l hl
      right
      apply mapM_float_junk
      rcases List.mem_cons.1 hl with rfl | hl
      · simp
      · obtain ⟨r, -, rfl⟩ := List.mem_map.1 hl
        simp
    · exact ⟨_, List.mem_cons_self, mapM_float_junk (by simp)⟩
  -- the header
  obtain ⟨hdr, rfl, hh⟩ : ∃ hdr : List (HKey × Option ℚ),
      file = hdr.map (fun e => [.key e.1, .num e.2]) ++ l0 :: ls ∧
      ((∃ t, aaiTransform hdr = .ok t) ∧ intEntry hdr .ncols = .ok () ∧ intEntry hdr .nrows = .ok ()) := by
    cases center with
    | true =>
      refine ⟨[(.ncols, some g.size.2), (.nrows, some g.size.1), (.xllcenter, some (centerLlref g.t).1),
        (.yllcenter, some (centerLlref g.t).2), (.cellsize, some g.t.dx), (.nodata, nd)], ?_, ⟨⟨_, rfl⟩, rfl, rfl⟩⟩
      rw [← h, hlines]; rfl
    | false =>
      refine ⟨[(.ncols, some g.size.2), (.nrows, some g.size.1), (.xllcorner, some g.t.x0),
        (.yllcorner, some g.t.y0), (.cellsize, some g.t.dx), (.nodata, nd)], ?_, ⟨⟨_, rfl⟩, rfl, rfl⟩⟩
      rw [← h, hlines]; rfl
  obtain ⟨⟨t, ht⟩, hc, hr⟩ := hh
  have hcount := countHeader_file hdr l0 ls .junk ts hl0 (by intro k; simp)
  unfold readAai
  rw [hcount]
  have htake : (hdr.map (fun e => ([.key e.1, .num e.2] : List Tok)) ++ l0 :: ls).take hdr.length =
      hdr.map fun e => [.key e.1, .num e.2] := by
    rw [List.take_append_of_le_length (by simp), List.take_of_length_le (by simp)]
  have hdrop : (hdr.map (fun e => ([.key e.1, .num e.2] : List Tok)) ++ l0 :: ls).drop hdr.length = l0 :: ls := by
    rw [List.drop_append_of_le_length (by simp), List.drop_of_length_le (by simp), List.nil_append]
  simp only [htake, hdrop, mapM_header, hc, hr, ht, hmapM]

/-- **C67.**  `to_aai` accepts a grid exactly if its cells are square and the two skews are equal or the
second one is zero. -/
theorem C67_accepts_iff_partial (g : RGrid (Option ℚ)) (H W : Nat) (Ps : List (Int → Int → Option ℚ))
    (hg : g.Holds H W Ps) (center : Bool) (nd : Option ℚ) :
    (∃ file, g.toAai center nd = .ok file) ↔ g.t.dx = g.t.dy ∧ (g.t.sx = g.t.sy ∨ g.t.sy = 0) := by
  obtain ⟨A, e, -, -⟩ := getitem_spec hg.1 hg.2 (kb := none) (positions_all H) (positions_all W) rfl
    (not_inverted_all H) (not_inverted_all W)
  unfold RGrid.toAai
  by_cases h1 : g.t.dx = g.t.dy
  · rw [if_neg (by simpa using h1)]
    by_cases h2 : g.t.sx ≠ g.t.sy ∧ g.t.sy ≠ 0
    · rw [if_pos h2]
      constructor
      · rintro ⟨_, h⟩; cases h
      · rintro ⟨-, h | h⟩
        · exact absurd h h2.1
        · exact absurd h h2.2
    · rw [if_neg h2, e]
      refine ⟨fun _ => ⟨h1, ?_⟩, fun _ => ⟨_, rfl⟩⟩
      by_contra hc
      exact h2 ⟨fun h => hc (.inl h), fun h => hc (.inr h)⟩
  · rw [if_pos h1]
    constructor
    · rintro ⟨_, h⟩; cases h
    · rintro ⟨h, -⟩; exact absurd h h1

/-- **C67 (violated).**  Skewed grids are not refused: for every `x0, y0, d` and every skew `s ≠ 0`, a grid
with skews `(s, 0)` or `(s, s)` is written without complaint, and the file is the one written for the
grid without skew (corner reference). -/
theorem C67_violated_skew_accepted (x0 y0 d s : ℚ) (g : RGrid (Option ℚ)) (H W : Nat)
    (Ps : List (Int → Int → Option ℚ)) (hg : g.Holds H W Ps) (nd : Option ℚ)
    (ht : g.t = ⟨x0, y0, d, d, s, 0⟩ ∨ g.t = ⟨x0, y0, d, d, s, s⟩) :
    ∃ file, g.toAai false nd = .ok file ∧
      RGrid.toAai ⟨⟨x0, y0, d, d, 0, 0⟩, g.bands, g.nodata⟩ false nd = .ok file := by
  obtain ⟨A, e, -, -⟩ := getitem_spec hg.1 hg.2 (kb := none) (positions_all H) (positions_all W) rfl
    (not_inverted_all H) (not_inverted_all W)
  have hsz : RGrid.size (⟨⟨x0, y0, d, d, 0, 0⟩, g.bands, g.nodata⟩ : RGrid (Option ℚ)) = g.size := rfl
  unfold RGrid.toAai
  rw [hsz]
  rcases ht with ht | ht <;>
  · rw [ht]
    simp only [ne_eq, not_true_eq_false, and_false, false_and, if_false, e]
    exact ⟨_, rfl, rfl⟩

/-! ### C22, C23, C68: GeoTIFF

Specification (GDAL): a raster stores its rows from the top down; the point at (fractional) row `r` and
column `c` lies at `gdalPoint gt r c`.
-/

/-- Ground coordinates of raster position `(r, c)`; integers are pixel corners, halves pixel centres. -/
def gdalPoint (gt : GeoT) (r c : ℚ) : ℚ × ℚ :=
  (gt.g0 + c * gt.g1 + r * gt.g2, gt.g3 + c * gt.g4 + r * gt.g5)

/-- The dataset is a raster of `H` rows and `W` columns holding, from the top row down, the bands `Qs`,
all with nodata value `nd`. -/
def Dataset.Stores (ds : Dataset α) (H W : Nat) (Qs : List (Nat → Nat → α)) (nd : α) : Prop :=
  ds.ny = H ∧ ds.nx = W ∧ ds.bands.length = Qs.length ∧
    ∀ (k : Nat) b Q, ds.bands[k]? = some b → Qs[k]? = some Q →
      b.1.ny = H ∧ b.1.nx = W ∧ b.2 = some nd ∧ ∀ r c, r < H → c < W → b.1.get r c = Q r c

theorem positions_rev (n : Nat) :
    Spec.positions n (.slice revSlice) = some ((List.range n).map fun (k : Nat) => (n : Int) - 1 - k) := by
  have h : revSlice.indices n = .ok ((n : Int) - 1, -1, -1) := by
    simp [revSlice, Slice.indices]
  have hl : rangeLen ((n : Int) - 1) (-1) (-1) = n := by
    unfold rangeLen
    rw [if_neg (by norm_num), if_pos (by norm_num)]
    simp only [neg_neg, Int.ediv_one]
    split_ifs <;> omega
  simp only [Spec.positions, h, Py.range, hl, Option.some.injEq]
  apply List.map_congr_left
  intro k _
  ring

theorem not_inverted_rev (n : Nat) : ¬ Inverted n (.slice revSlice) := by
  have h : revSlice.indices n = .ok ((n : Int) - 1, -1, -1) := by simp [revSlice, Slice.indices]
  simp only [Inverted, h]
  omega

theorem positions_int {n k : Nat} (h : k < n) : Spec.positions n (.int k) = some [(k : Int)] := by
  simp [Spec.positions, h]

theorem writeBand_spec (garb : α) {g : RGrid α} {H W : Nat} {Ps : List (Int → Int → α)} (hg : g.Holds H W Ps)
    (k : Nat) (P : Int → Int → α) (hP : Ps[k]? = some P) :
    ∃ a, writeBand garb g k = .ok (a, some g.nodata) ∧ a.ny = H ∧ a.nx = W ∧
      ∀ r c, r < H → c < W → a.get r c = P ((H : Int) - 1 - r) c := by
  have hk : k < g.bands.length := by
    rw [hg.1.1]; exact (List.getElem?_eq_some_iff.1 hP).1
  obtain ⟨A, e, hs, hv⟩ := getitem_spec hg.1 hg.2 (kb := some (.int k)) (positions_rev H) (positions_all W)
    (positions_int hk) (not_inverted_rev H) (not_inverted_all W)
  simp only [keep, keepB, Key.isInt, Option.map_some, Option.getD_some, Bool.false_eq_true, if_false, if_true,
    List.cons_append, List.nil_append, List.append_nil, List.length_map, List.length_range] at hs hv
  refine ⟨⟨H, W, fun r c => (A.get [r, c]).getD garb⟩, ?_, rfl, rfl, ?_⟩
  · unfold writeBand; rw [e]; simp only [hs]
  · intro r c hr hc
    have := hv r c 0 ((H : Int) - 1 - r) c k P (by simp [hr]) (by simp [hc]) (by simp) (by simpa using hP)
    simp only [this, Option.getD_some]

theorem toGeotiff_spec (garb : α) {g : RGrid α} {H W : Nat} {Ps : List (Int → Int → α)} (hg : g.Holds H W Ps) :
    ∃ ds, g.toGeotiff garb = .ok ds ∧ ds.gt = geoTransform g.t H ∧
      ds.Stores H W (Ps.map fun P r c => P ((H : Int) - 1 - r) c) g.nodata := by
  have hex : ∀ k ∈ List.range g.bands.length, ∃ y, writeBand garb g k = .ok y := by
    intro k hk
    have hk' : k < Ps.length := by rw [← hg.1.1]; exact List.mem_range.1 hk
    obtain ⟨a, e, -⟩ := writeBand_spec garb hg k Ps[k] (by simp [hk'])
    exact ⟨_, e⟩
  obtain ⟨bs, e, hl, hb⟩ := mapM_ok _ _ hex
  have hsz := hg.size
  refine ⟨⟨H, W, geoTransform g.t H, bs⟩, ?_, rfl, rfl, rfl, ?_, ?_⟩
  · unfold RGrid.toGeotiff; rw [e, hsz]
  · simp [hl, hg.1.1]
  · intro k b Q hbk hQ
    simp only at hbk
    simp only [List.getElem?_map, Option.map_eq_some_iff] at hQ
    obtain ⟨P, hP, rfl⟩ := hQ
    have hk : k < g.bands.length := by rw [hg.1.1]; exact (List.getElem?_eq_some_iff.1 hP).1
    obtain ⟨y, hy, hy2⟩ := hb k k (by simp [hk])
    rw [hbk] at hy; cases hy
    obtain ⟨a, e', h1, h2, h3⟩ := writeBand_spec garb hg k P hP
    rw [e'] at hy2; cases hy2
    exact ⟨h1, h2, rfl, h3⟩

/-- **C68.**  `to_geotiff` puts every pixel of every grid -- skewed or not -- where it belongs: writing
succeeds, band `k` of the file is band `k` of the grid, and the value of cell `(i, j)` is stored at a
raster position whose ground coordinates are those of the cell's centre. -/
theorem C68_geotiff_places_pixels (garb : α) (g : RGrid α) (H W : Nat) (Ps : List (Int → Int → α))
    (hg : g.Holds H W Ps) :
    ∃ ds Qs, g.toGeotiff garb = .ok ds ∧ ds.Stores H W Qs g.nodata ∧ Qs.length = Ps.length ∧
      ∀ (k : Nat) P Q, Ps[k]? = some P → Qs[k]? = some Q → ∀ i j : Nat, i < H → j < W →
        ∃ r c : Nat, r < H ∧ c < W ∧ Q r c = P i j ∧
          gdalPoint ds.gt ((r : ℚ) + 1 / 2) ((c : ℚ) + 1 / 2) = centerCoord g.t i j := by
  obtain ⟨ds, e, ht, hs⟩ := toGeotiff_spec garb hg
  refine ⟨ds, _, e, hs, by simp, ?_⟩
  intro k P Q hP hQ i j hi hj
  simp only [List.getElem?_map, hP, Option.map_some, Option.some.injEq] at hQ
  subst hQ
  refine ⟨H - 1 - i, j, by omega, hj, ?_, ?_⟩
  · simp only
    congr 1
    omega
  · rw [ht]
    have : ((H - 1 - i : Nat) : ℚ) = (H : ℚ) - 1 - i := by
      rw [Nat.sub_sub, Nat.cast_sub (by omega)]; push_cast; ring
    simp only [gdalPoint, geoTransform, centerCoord, this, Prod.mk.injEq, Int.cast_natCast]
    constructor <;> ring

theorem readBand_spec (zero : α) (a : Arr α) (hy : a.ny ≠ 1) (hx : a.nx ≠ 1) :
    ∃ b P, readBand zero a = .ok b ∧ Reach a.ny a.nx b P ∧
      ∀ y x : Nat, y < a.ny → x < a.nx → P y x = a.get (a.ny - 1 - y) x := by
  obtain ⟨b, P, e, hr, hv⟩ := mkBand_spec zero (⟨a.ny, a.nx, fun r c => a.get (a.ny - 1 - r) c⟩ : Arr α)
  refine ⟨b, P, ?_, hr, hv⟩
  unfold readBand
  rw [if_neg (by tauto), if_neg (by tauto)]
  exact e

/-- Reading a whole dataset of at least two rows and two columns. -/
theorem readGeotiff_spec (zero dflt : α) (ds : Dataset α) (H W : Nat) (Qs : List (Nat → Nat → α)) (nd : α)
    (hs : ds.Stores H W Qs nd) (hne : Qs ≠ []) (hH : H ≠ 1) (hW : W ≠ 1) :
    ∃ g Ps, readGeotiff zero dflt ds none = .ok g ∧ g.t = readTransform ds.gt H ∧ g.nodata = nd ∧
      g.Holds H W Ps ∧ Ps.length = Qs.length ∧
      ∀ (k : Nat) P Q, Ps[k]? = some P → Qs[k]? = some Q → ∀ y x : Nat, y < H → x < W →
        P y x = Q (H - 1 - y) x := by
  obtain ⟨h1, h2, h3, h4⟩ := hs
  have hbk : ∀ (k : Nat) b, ds.bands[k]? = some b → ∃ Q, Qs[k]? = some Q := by
    intro k b hb
    have := (List.getElem?_eq_some_iff.1 hb).1
    exact ⟨Qs[k]'(by omega), by simp [show k < Qs.length by omega]⟩
  have hex : ∀ b ∈ ds.bands, ∃ y, readBand zero b.1 = .ok y := by
    intro b hb
    obtain ⟨k, hk⟩ := List.getElem?_of_mem hb
    obtain ⟨Q, hQ⟩ := hbk k b hk
    obtain ⟨e1, e2, -⟩ := h4 k b Q hk hQ
    obtain ⟨y, -, e, -⟩ := readBand_spec zero b.1 (by omega) (by omega)
    exact ⟨y, e⟩
  obtain ⟨bs, e, hl, hb⟩ := mapM_ok (fun b : Arr α × Option α => readBand zero b.1) _ hex
  have hP : ∀ (k : Nat), ∃ P : Int → Int → α, ∀ b' Q, bs[k]? = some b' → Qs[k]? = some Q →
      Reach H W b' P ∧ ∀ y x : Nat, y < H → x < W → P y x = Q (H - 1 - y) x := by
    intro k
    by_cases hk : k < ds.bands.length
    · obtain ⟨b', hb', he⟩ := hb k ds.bands[k] (by simp [hk])
      obtain ⟨Q, hQ⟩ := hbk k ds.bands[k] (by simp [hk])
      obtain ⟨e1, e2, -, e4⟩ := h4 k ds.bands[k] Q (by simp [hk]) hQ
      obtain ⟨y, P, e', hr, hv⟩ := readBand_spec zero ds.bands[k].1 (by omega) (by omega)
      rw [e'] at he; cases he
      refine ⟨P, ?_⟩
      intro b'' Q' hb'' hQ'
      rw [hb'] at hb''; cases hb''
      rw [hQ] at hQ'; cases hQ'
      rw [e1, e2] at hr
      refine ⟨hr, fun y x hy hx => ?_⟩
      rw [hv y x (by omega) (by omega), e1, e4 _ _ (by omega) hx]
    · refine ⟨fun _ _ => zero, ?_⟩
      intro b' Q hb' _
      have := (List.getElem?_eq_some_iff.1 hb').1
      omega
  choose P hP using hP
  have hbne : ds.bands ≠ [] := by
    intro h; rw [h] at h3; exact hne (List.length_eq_zero_iff.1 h3.symm)
  obtain ⟨b0, bt, hcons⟩ := List.exists_cons_of_ne_nil hbne
  obtain ⟨Q0, Qt, hQcons⟩ := List.exists_cons_of_ne_nil hne
  obtain ⟨-, -, hnd, -⟩ := h4 0 b0 Q0 (by rw [hcons]; rfl) (by rw [hQcons]; rfl)
  refine ⟨⟨readTransform ds.gt H, bs, nd⟩, (List.range Qs.length).map P, ?_, rfl, rfl, ⟨⟨?_, ?_⟩, ?_⟩, by simp, ?_⟩
  · unfold readGeotiff rasterBands
    simp only [hcons]
    rw [hcons] at e
    rw [e]
    simp only [h1, hnd, Option.getD_some]
  · simp [hl, h3]
  · intro k b' P' hb' hP'
    simp only at hb'
    have hk := (List.getElem?_eq_some_iff.1 hb').1
    have hk' : k < Qs.length := by omega
    simp only [List.getElem?_map, List.getElem?_range hk', Option.map_some, Option.some.injEq] at hP'
    subst hP'
    exact (hP k b' Qs[k] hb' (by simp [hk'])).1
  · intro h
    simp only at h
    rw [h] at hl
    exact hbne (List.length_eq_zero_iff.1 hl.symm)
  · intro k P' Q hP' hQ y x hy hx
    have hk' := (List.getElem?_eq_some_iff.1 hQ).1
    simp only [List.getElem?_map, List.getElem?_range hk', Option.map_some, Option.some.injEq] at hP'
    subst hP'
    have hkb : k < bs.length := by omega
    exact (hP k bs[k] Q (by simp [hkb]) hQ).2 y x hy hx

/-- **C22 (partial).**  Writing an unskewed grid as a GeoTIFF and reading the file back gives the same
transform, the same nodata value and the same pixels in the same bands.  Missing: skewed grids
(`C22_violated_skew`) and grids with a single row or column (`C22_violated_single_row`). -/
theorem C22_geotiff_round_trip_partial (garb zero dflt : α) (g : RGrid α) (H W : Nat)
    (Ps : List (Int → Int → α)) (hg : g.Holds H W Ps) (hH : H ≠ 1) (hW : W ≠ 1)
    (hsx : g.t.sx = 0) (hsy : g.t.sy = 0) :
    ∃ ds g' Ps', g.toGeotiff garb = .ok ds ∧ readGeotiff zero dflt ds none = .ok g' ∧
      g'.t = g.t ∧ g'.nodata = g.nodata ∧ g'.Holds H W Ps' ∧ Ps'.length = Ps.length ∧
      ∀ (k : Nat) P P', Ps[k]? = some P → Ps'[k]? = some P' → ∀ y x : Nat, y < H → x < W →
        P' y x = P y x := by
  obtain ⟨ds, e, ht, hs⟩ := toGeotiff_spec garb hg
  have hPs : Ps ≠ [] := by
    intro h; apply hg.2; have := hg.1.1; rw [h] at this; simpa using this
  obtain ⟨g', Ps', e', ht', hn, hh, hl, hv⟩ := readGeotiff_spec zero dflt ds H W _ g.nodata hs (by simpa using hPs) hH hW
  refine ⟨ds, g', Ps', e, e', ?_, hn, hh, by simpa using hl, ?_⟩
  · rw [ht', ht]
    obtain ⟨⟨x0, y0, dx, dy, sx, sy⟩, bands, nd⟩ := g
    simp only at hsx hsy
    subst hsx hsy
    simp [readTransform, geoTransform]
  · intro k P P' hP hP' y x hy hx
    have := hv k P' (fun r c => P ((H : Int) - 1 - r) c) hP' (by simp [hP]) y x hy hx
    rw [this]
    congr 1
    omega

/-- **C22 (violated).**  For every grid with a skew, the transform read back from its GeoTIFF is different
from the transform written: the skews come back with the opposite sign, and the corner is displaced by
twice the height of the grid times the first skew. -/
theorem C22_violated_skew (garb zero dflt : α) (g : RGrid α) (H W : Nat)
    (Ps : List (Int → Int → α)) (hg : g.Holds H W Ps) (hH : H ≠ 1) (hW : W ≠ 1)
    (hsk : g.t.sx ≠ 0 ∨ g.t.sy ≠ 0) :
    ∃ ds g', g.toGeotiff garb = .ok ds ∧ readGeotiff zero dflt ds none = .ok g' ∧ g'.t ≠ g.t ∧
      g'.t = ⟨g.t.x0 + 2 * H * g.t.sx, g.t.y0, g.t.dx, g.t.dy, -g.t.sx, -g.t.sy⟩ := by
  obtain ⟨ds, e, ht, hs⟩ := toGeotiff_spec garb hg
  have hPs : Ps ≠ [] := by
    intro h; apply hg.2; have := hg.1.1; rw [h] at this; simpa using this
  obtain ⟨g', Ps', e', ht', -⟩ := readGeotiff_spec zero dflt ds H W _ g.nodata hs (by simpa using hPs) hH hW
  have hform : g'.t = ⟨g.t.x0 + 2 * H * g.t.sx, g.t.y0, g.t.dx, g.t.dy, -g.t.sx, -g.t.sy⟩ := by
    rw [ht', ht]
    simp only [readTransform, geoTransform, neg_neg, Xform.mk.injEq, and_true, true_and]
    constructor <;> ring
  refine ⟨ds, g', e, e', ?_, hform⟩
  intro h
  rw [hform] at h
  rcases hsk with h1 | h1
  · apply h1
    have := congrArg Xform.sx h
    simp only at this
    linarith
  · apply h1
    have := congrArg Xform.sy h
    simp only at this
    linarith

/-- **C22 (violated), single row or column.**  A grid with exactly one row or exactly one column can be
written as a GeoTIFF but not read back into memory. -/
theorem C22_violated_single_row (garb zero dflt : α) (g : RGrid α) (H W : Nat)
    (Ps : List (Int → Int → α)) (hg : g.Holds H W Ps) (h1 : H = 1 ∨ W = 1) :
    ∃ ds e, g.toGeotiff garb = .ok ds ∧ readGeotiff zero dflt ds none = .error e := by
  obtain ⟨ds, e, ht, h1', h2', h3', h4'⟩ := toGeotiff_spec garb hg
  have hPs : Ps ≠ [] := by
    intro h; apply hg.2; have := hg.1.1; rw [h] at this; simpa using this
  obtain ⟨P0, Pt, hQcons⟩ := List.exists_cons_of_ne_nil hPs
  have hbne : ds.bands ≠ [] := by
    intro h; rw [h, hQcons] at h3'; simp at h3'
  obtain ⟨b0, bt, hcons⟩ := List.exists_cons_of_ne_nil hbne
  obtain ⟨a1, a2, -, -⟩ := h4' 0 b0 _ (by rw [hcons]; rfl) (by rw [hQcons]; rfl)
  obtain ⟨er, her⟩ : ∃ er, readBand zero b0.1 = .error er := by
    unfold readBand
    by_cases h : b0.1.ny = 1 ∧ b0.1.nx = 1
    · rw [if_pos h]; exact ⟨_, rfl⟩
    · rw [if_neg h, if_pos (by omega)]; exact ⟨_, rfl⟩
  refine ⟨ds, er, e, ?_⟩
  unfold readGeotiff rasterBands
  simp only [hcons]
  rw [List.mapM_cons, her]
  rfl

/-- **C69.**  Reading a GeoTIFF places the pixels where the file says: for every dataset of at least two
rows and columns, the cells of the grid lie at the ground coordinates of the raster positions their values
come from -- provided the geotransform has no skew terms. -/
theorem C69_read_places_pixels_partial (zero dflt : α) (ds : Dataset α) (H W : Nat) (Qs : List (Nat → Nat → α))
    (nd : α) (hs : ds.Stores H W Qs nd) (hne : Qs ≠ []) (hH : H ≠ 1) (hW : W ≠ 1)
    (h2 : ds.gt.g2 = 0) (h4 : ds.gt.g4 = 0) :
    ∃ g Ps, readGeotiff zero dflt ds none = .ok g ∧ g.Holds H W Ps ∧ Ps.length = Qs.length ∧
      g.nodata = nd ∧
      ∀ (k : Nat) P Q, Ps[k]? = some P → Qs[k]? = some Q → ∀ r c : Nat, r < H → c < W →
        ∃ i j : Nat, i < H ∧ j < W ∧ P i j = Q r c ∧
          centerCoord g.t i j = gdalPoint ds.gt ((r : ℚ) + 1 / 2) ((c : ℚ) + 1 / 2) := by
  obtain ⟨g, Ps, e, ht, hn, hh, hl, hv⟩ := readGeotiff_spec zero dflt ds H W Qs nd hs hne hH hW
  refine ⟨g, Ps, e, hh, hl, hn, ?_⟩
  intro k P Q hP hQ r c hr hc
  refine ⟨H - 1 - r, c, by omega, hc, ?_, ?_⟩
  · rw [hv k P Q hP hQ _ _ (by omega) hc]
    congr 1
    omega
  · rw [ht]
    have : ((H - 1 - r : Nat) : ℚ) = (H : ℚ) - 1 - r := by
      rw [Nat.sub_sub, Nat.cast_sub (by omega)]; push_cast; ring
    simp only [gdalPoint, readTransform, centerCoord, this, h2, h4, Prod.mk.injEq, Int.cast_natCast]
    constructor <;> ring

/-- **C69, selected bands.**  Bands asked for by number (counted from one) are read as if the file consisted
of just these bands, in the order asked for; an unknown number is refused. -/
theorem C69_band_selection (zero dflt : α) (ds : Dataset α) (is : List Nat) :
    (∀ sel, (sel.map some = is.map fun i => if 1 ≤ i then ds.bands[i - 1]? else none) →
      readGeotiff zero dflt ds (some is) = readGeotiff zero dflt { ds with bands := sel } none) ∧
    ((∃ i ∈ is, i = 0 ∨ ds.bands.length < i) → readGeotiff zero dflt ds (some is) = .error .other) := by
  have hm : ∀ is : List Nat, (∀ sel, (sel.map some = is.map fun i => if 1 ≤ i then ds.bands[i - 1]? else none) →
      rasterBands ds (some is) = .ok sel) ∧ ((∃ i ∈ is, i = 0 ∨ ds.bands.length < i) → rasterBands ds (some is) = .error .other) := by
    intro is
    induction is with
    | nil =>
      refine ⟨?_, by simp⟩
      intro sel h
      have : sel = [] := by simpa using h
      rw [this]; rfl
    | cons i is ih =>
      constructor
      · intro sel h
        cases sel with
        | nil => simp at h
        | cons b sel =>
          simp only [List.map_cons, List.cons.injEq] at h
          obtain ⟨h1, h2⟩ := h
          have hi : 1 ≤ i := by
            by_contra hc
            rw [if_neg hc] at h1; cases h1
          rw [if_pos hi] at h1
          have h3 := ih.1 sel h2
          simp only [rasterBands] at h3 ⊢
          rw [List.mapM_cons, ← h1, h3]
          simp only [if_neg (by omega : ¬ i = 0)]
          rfl
      · rintro ⟨j, hj, hb⟩
        simp only [rasterBands] at ih ⊢
        rw [List.mapM_cons]
        cases hb1 : ds.bands[i - 1]? with
        | none => rfl
        | some b =>
          by_cases hi : i = 0
          · simp only [if_pos hi]; rfl
          · simp only [if_neg hi]
            have hlt : i - 1 < ds.bands.length := by
              by_contra hc
              rw [List.getElem?_eq_none (by omega)] at hb1; cases hb1
            rcases List.mem_cons.1 hj with rfl | hj
            · omega
            · rw [ih.2 ⟨j, hj, hb⟩]; rfl
  constructor
  · intro sel h
    unfold readGeotiff
    rw [(hm is).1 sel h]
    rfl
  · intro h
    unfold readGeotiff
    rw [(hm is).2 h]

/-- **C69 (violated).**  With a skew term the grid is placed elsewhere: the centre of the top left pixel
is read at a wrong position for every dataset whose second skew term is not zero, and for every dataset
whose first skew term is not zero. -/
theorem C69_violated_skew (gt : GeoT) (H : Nat) (hH : 0 < H) (h : gt.g2 ≠ 0 ∨ gt.g4 ≠ 0) :
    centerCoord (readTransform gt H) ((H : Int) - 1) 0 ≠ gdalPoint gt (1 / 2) (1 / 2) := by
  intro he
  simp only [gdalPoint, readTransform, centerCoord, Prod.mk.injEq, Int.cast_sub, Int.cast_natCast, Int.cast_one,
    Int.cast_zero] at he
  obtain ⟨e1, e2⟩ := he
  rcases h with h | h
  · apply h; linarith
  · apply h; linarith

/-- **C23 (partial).**  For every dataset of at least two rows and two columns and every non-empty window
inside it, reading the window through the file-backed band gives the same pixels as reading the file into
memory and then the window.  Missing: files of one row or one column, see `C23_violated_single_row`. -/
theorem C23_file_band_agrees_partial (zero : α) (a : Arr α) (hy : a.ny ≠ 1) (hx : a.nx ≠ 1)
    (yoff xoff ny nx : Int) (hw : InRange a.ny a.nx yoff xoff ny nx) (hny : 0 < ny) (hnx : 0 < nx) :
    ∃ b m f, readBand zero a = .ok b ∧ b.getblock yoff xoff ny nx = .ok m ∧
      fileGetblock a yoff xoff ny nx = .ok f ∧ m.Same (f.map some) := by
  obtain ⟨b, P, e, hr, hv⟩ := readBand_spec zero a hy hx
  obtain ⟨m, em, m1, m2, mv⟩ := hr.getblock yoff xoff ny nx hw
  obtain ⟨g0, g1, g2, g3, g4, g5⟩ := hw
  have hf : fileGetblock a yoff xoff ny nx = .ok ⟨ny.toNat, nx.toNat, fun r c =>
      a.get (((a.ny : Int) - yoff - ny).toNat + (ny.toNat - 1 - r)) (xoff.toNat + c)⟩ := by
    unfold fileGetblock
    exact if_pos (by omega)
  refine ⟨b, m, _, e, em, hf, ?_⟩
  refine ⟨m1, m2, ?_⟩
  · intro r c hr' hc'
    rw [m1] at hr'
    rw [m2] at hc'
    rw [mv r c hr' hc']
    simp only [Arr.map, Option.some.injEq]
    have h1 := hv (yoff + r).toNat (xoff + c).toNat (by omega) (by omega)
    rw [Int.toNat_of_nonneg (by omega), Int.toNat_of_nonneg (by omega)] at h1
    rw [h1]
    congr 1 <;> omega

/-- What the file-backed band returns, for files of any size: row `0` is the bottom row of the file. -/
theorem C23_file_band_pixels (a : Arr α) (yoff xoff ny nx : Int) (hw : InRange a.ny a.nx yoff xoff ny nx)
    (hny : 0 < ny) (hnx : 0 < nx) :
    ∃ f, fileGetblock a yoff xoff ny nx = .ok f ∧ f.ny = ny.toNat ∧ f.nx = nx.toNat ∧
      ∀ r c : Nat, r < ny.toNat → c < nx.toNat →
        f.get r c = a.get (a.ny - 1 - (yoff.toNat + r)) (xoff.toNat + c) := by
  obtain ⟨g0, g1, g2, g3, g4, g5⟩ := hw
  have hf : fileGetblock a yoff xoff ny nx = .ok ⟨ny.toNat, nx.toNat, fun r c =>
      a.get (((a.ny : Int) - yoff - ny).toNat + (ny.toNat - 1 - r)) (xoff.toNat + c)⟩ := by
    unfold fileGetblock
    exact if_pos (by omega)
  refine ⟨_, hf, rfl, rfl, ?_⟩
  intro r c hr hc
  simp only
  congr 1
  omega

/-- **C23 (violated).**  A file of one row (or one column) is readable through the file-backed band, but
reading it into memory raises. -/
theorem C23_violated_single_row (zero : α) (a : Arr α) (h0 : 0 < a.ny) (h1 : 0 < a.nx)
    (h : a.ny = 1 ∨ a.nx = 1) :
    (∃ f, fileGetblock a 0 0 a.ny a.nx = .ok f) ∧ ∃ e, readBand zero a = .error e := by
  constructor
  · unfold fileGetblock
    rw [if_pos (by omega)]
    exact ⟨_, rfl⟩
  · unfold readBand
    by_cases hc : a.ny = 1 ∧ a.nx = 1
    · rw [if_pos hc]; exact ⟨_, rfl⟩
    · rw [if_neg hc, if_pos (by omega)]; exact ⟨_, rfl⟩

/-! ### C70: `from_geotiffs` -/

/-- **C70 (violated).**  The files are documented to be checked for a common transform.  They are not: any
two files of the same size (at least two rows and columns) with data and with numeric nodata values are
combined, whatever their geotransforms; the result has the transform of the first file and one band from
each. -/
theorem C70_violated_transforms_not_compared (ds ds' : Dataset (Option ℚ)) (H W : Nat)
    (Q Q' : Nat → Nat → Option ℚ) (q q' : ℚ) (hH : H ≠ 1) (hW : W ≠ 1)
    (h : ds.Stores H W [Q] (some q)) (h' : ds'.Stores H W [Q'] (some q')) :
    ∃ g P P', fromGeotiffs [ds, ds'] = .ok g ∧ g.t = readTransform ds.gt H ∧ g.Holds H W [P, P'] ∧
      ∀ y x : Nat, y < H → x < W → P y x = Q (H - 1 - y) x ∧ P' y x = Q' (H - 1 - y) x := by
  obtain ⟨a1, a2, a3, a4⟩ := h
  obtain ⟨c1, c2, c3, c4⟩ := h'
  obtain ⟨b, hb⟩ := List.length_eq_one_iff.1 (by simpa using a3 : ds.bands.length = 1)
  obtain ⟨b', hb'⟩ := List.length_eq_one_iff.1 (by simpa using c3 : ds'.bands.length = 1)
  obtain ⟨e1, e2, e3, e4⟩ := a4 0 b Q (by rw [hb]; rfl) rfl
  obtain ⟨f1, f2, f3, f4⟩ := c4 0 b' Q' (by rw [hb']; rfl) rfl
  obtain ⟨y, P, r1, r2, r3⟩ := readBand_spec (some 0) b.1 (by omega) (by omega)
  obtain ⟨y', P', s1, s2, s3⟩ := readBand_spec (some 0) b'.1 (by omega) (by omega)
  rw [e1, e2] at r2
  rw [f1, f2] at s2
  obtain ⟨-, n1, n2, -⟩ := r2.sound
  obtain ⟨-, n3, n4, -⟩ := s2.sound
  refine ⟨⟨readTransform ds.gt H, [y, y'], some q⟩, P, P', ?_, rfl, ⟨⟨rfl, ?_⟩, by simp⟩, ?_⟩
  · unfold fromGeotiffs
    simp only [geotiffsLoop, hb, hb', r1, s1, Option.map_none, Option.getD_none, Option.map_some, Option.getD_some,
      e3, f3, compareHeaders, List.any_cons, List.any_nil, n1, n2, n3, n4, ne_eq, not_true_eq_false,
      decide_false, Bool.or_self, Bool.false_eq_true, if_false, List.head?_cons, Option.bind_some, a1]
  · intro k b'' P'' hb'' hP''
    match k with
    | 0 => simp at hb'' hP''; subst hb'' hP''; exact r2
    | 1 => simp at hb'' hP''; subst hb'' hP''; exact s2
    | k + 2 => simp at hb''
  · intro i j hi hj
    rw [r3 i j (by omega) (by omega), s3 i j (by omega) (by omega), e1, f1, e4 _ _ (by omega) hj, f4 _ _ (by omega) hj]
    exact ⟨rfl, rfl⟩

/-- **C70, nodata values.**  Of two files of one size, the second is refused if its nodata value is NaN and
that of the first is a number; in the opposite order the pair is accepted. -/
theorem C70_violated_nan_order (ds ds' : Dataset (Option ℚ)) (H W : Nat) (Q Q' : Nat → Nat → Option ℚ) (q : ℚ)
    (hH : H ≠ 1) (hW : W ≠ 1) (h : ds.Stores H W [Q] (some q)) (h' : ds'.Stores H W [Q'] none) :
    fromGeotiffs [ds, ds'] = .error .other ∧ ∃ g, fromGeotiffs [ds', ds] = .ok g := by
  obtain ⟨a1, a2, a3, a4⟩ := h
  obtain ⟨c1, c2, c3, c4⟩ := h'
  obtain ⟨b, hb⟩ := List.length_eq_one_iff.1 (by simpa using a3 : ds.bands.length = 1)
  obtain ⟨b', hb'⟩ := List.length_eq_one_iff.1 (by simpa using c3 : ds'.bands.length = 1)
  obtain ⟨e1, e2, e3, e4⟩ := a4 0 b Q (by rw [hb]; rfl) rfl
  obtain ⟨f1, f2, f3, f4⟩ := c4 0 b' Q' (by rw [hb']; rfl) rfl
  obtain ⟨y, P, r1, r2, r3⟩ := readBand_spec (some 0) b.1 (by omega) (by omega)
  obtain ⟨y', P', s1, s2, s3⟩ := readBand_spec (some 0) b'.1 (by omega) (by omega)
  rw [e1, e2] at r2
  rw [f1, f2] at s2
  obtain ⟨-, n1, n2, -⟩ := r2.sound
  obtain ⟨-, n3, n4, -⟩ := s2.sound
  constructor
  · unfold fromGeotiffs
    simp only [geotiffsLoop, hb, hb', r1, s1, Option.map_none, Option.getD_none, Option.map_some, Option.getD_some,
      e3, f3, compareHeaders]
  · unfold fromGeotiffs
    simp only [geotiffsLoop, hb, hb', r1, s1, Option.map_none, Option.getD_none, Option.map_some, Option.getD_some,
      e3, f3, compareHeaders, List.any_cons, List.any_nil, n1, n2, n3, n4, ne_eq, not_true_eq_false,
      decide_false, Bool.or_self, Bool.false_eq_true, if_false]
    exact ⟨_, rfl⟩

/-- **C70 (partial).**  What is refused: no file at all, a file without bands, bands of different sizes. -/
theorem C70_sizes_agree_partial (dss : List (Dataset (Option ℚ))) (g : RGrid (Option ℚ))
    (h : fromGeotiffs dss = .ok g) :
    dss ≠ [] ∧ (∃ ds, dss.head? = some ds ∧ g.t = readTransform ds.gt ds.ny) ∧
      ∀ b ∈ g.bands, (b.ny, b.nx) = g.size := by
  unfold fromGeotiffs at h
  cases dss with
  | nil => cases h
  | cons ds rest =>
    simp only at h
    cases hl : geotiffsLoop none (ds :: rest) with
    | error e => rw [hl] at h; cases h
    | ok bs =>
      rw [hl] at h
      cases bs with
      | nil => cases h
      | cons b0 bs =>
        simp only at h
        by_cases hany : (bs.any fun b => decide ((b.ny, b.nx) ≠ (b0.ny, b0.nx))) = true
        · rw [if_pos hany] at h; cases h
        · rw [if_neg hany] at h
          cases h
          refine ⟨by simp, ⟨ds, rfl, rfl⟩, ?_⟩
          intro b hb
          simp only [RGrid.size]
          rcases List.mem_cons.1 hb with rfl | hb
          · rfl
          · by_contra hc
            apply hany
            rw [List.any_eq_true]
            exact ⟨b, hb, decide_eq_true hc⟩

/-! ### C71: data types -/

/-- **C71.**  Which data types survive being written to and read from a GeoTIFF: exactly these seven
(all types the library names are covered by the type `NpType`). -/
theorem C71_dtype_round_trip_partial (t : NpType) :
    (gdalType t).map numpyDtype = .ok t ↔
      t ∈ [NpType.uint8, .uint16, .int16, .int32, .float32, .float64, .complex64] := by
  cases t <;> decide

/-- **C71 (violated).**  Signed bytes come back unsigned, 64-bit integers come back as 32-bit ones, and
unsigned 32-bit integers, which GDAL can hold and which are readable, cannot be written. -/
theorem C71_violated :
    (gdalType .int8).map numpyDtype = .ok .uint8 ∧ (gdalType .int64).map numpyDtype = .ok .int32 ∧
      gdalType .uint32 = .error .typeError ∧ numpyDtype .uint32 = .uint32 := by decide

/-! ### Non-vacuity -/

/-- A 2 × 3 grid with two bands, as in the hypotheses above. -/
theorem exists_grid (t : Xform) (nd : ℚ) (H W : Nat) :
    ∃ (g : RGrid ℚ) (Ps : List (Int → Int → ℚ)), g.t = t ∧ g.nodata = nd ∧ g.Holds H W Ps ∧ Ps.length = 2 ∧
      ∀ (k : Nat) P, Ps[k]? = some P → ∀ y x : Nat, y < H → x < W → P y x = 10 * y + x + 100 * k := by
  obtain ⟨g, Ps, -, h1, h2, h3, h4, h5⟩ := fromValues_spec 0 0 t nd
    (⟨[H, W, 2], fun
      | [y, x, k] => some (10 * y + x + 100 * k : ℚ)
      | _ => none⟩ : NdArr (Option ℚ)) H W 2 (by norm_num) rfl (fun y x k => 10 * y + x + 100 * k)
    (fun y x k _ _ _ => rfl)
  exact ⟨g, Ps, h1, h2, h3, h4, h5⟩

example : ∃ (g : RGrid ℚ) (Ps : List (Int → Int → ℚ)), g.Holds 2 3 Ps ∧ g.t.sx = 1 := by
  obtain ⟨g, Ps, h1, -, h3, -⟩ := exists_grid ⟨0, 0, 5, 5, 1, 0⟩ 0 2 3
  exact ⟨g, Ps, h3, by rw [h1]⟩

/-- A dataset as in the hypotheses of C69 and C70. -/
example : (⟨2, 3, ⟨10, 2, 0, 50, 0, -2⟩, [(⟨2, 3, fun r c => some (10 * r + c : ℚ)⟩, some (some (-1)))]⟩ :
    Dataset (Option ℚ)).Stores 2 3 [fun r c => some (10 * r + c : ℚ)] (some (-1)) := by
  refine ⟨rfl, rfl, rfl, ?_⟩
  intro k b Q hb hQ
  match k with
  | 0 => simp at hb hQ; subst hb hQ; exact ⟨rfl, rfl, rfl, fun _ _ _ _ => rfl⟩
  | k + 1 => simp at hb

example : InRange 4 5 1 2 2 3 := by simp [InRange]

end Karta.Grid
