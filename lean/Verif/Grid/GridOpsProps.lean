import Verif.Grid.ResampleProps
import Verif.Grid.WindowProps

/-!
Properties C113-C116 of whole-grid operations: arithmetic, extent of the data, extreme values and
aligned origins.
-/

namespace Karta.Grid
open Karta Karta.Band Karta.Band.Spec Karta.Band.Indexer

variable {α : Type _}

/-! ### C113 -/

/-- Reading `g[:, :]`. -/
theorem read_all {g : RGrid α} {H W : Nat} {Ps : List (Int → Int → α)} (hg : g.Holds H W Ps) :
    ∃ A, getitem g.bands (.slice .all) (.slice .all) none = .ok A ∧ A.shape = [H, W, Ps.length] ∧
      ∀ (y x k : Nat) P, y < H → x < W → Ps[k]? = some P → A.get [y, x, k] = some (P y x) := by
  obtain ⟨A, h1, h2, h3⟩ := getitem_spec hg.1 hg.2 (ky := .slice .all) (kx := .slice .all)
    (kb := none) (positions_all H) (positions_all W) rfl (not_inverted_all H) (not_inverted_all W)
  refine ⟨A, h1, ?_, ?_⟩
  · rw [h2]; simp [keep, keepB, Key.isInt, hg.1.1]
  · intro y x k P hy hx hP
    have hk : k < g.bands.length := by rw [hg.1.1]; exact (List.getElem?_eq_some_iff.1 hP).1
    exact h3 y x k y x k P (by simp [hy]) (by simp [hx]) (by simp [hk]) (by simpa using hP)

/-- Spec: band `k` of a list of bands in which a single band stands for any number of equal ones. -/
def spread (Ps : List (Int → Int → α)) (k : Nat) : Option (Int → Int → α) :=
  if Ps.length = 1 then Ps[0]? else Ps[k]?

/-- C113.  Two grids with the same transform and size, whose numbers of bands are equal or one of which has
a single band, combine cell by cell: the result has that transform, size and the left operand's nodata
value, and in every band each cell holds the sum (difference) of the two cells. -/
theorem C113_cellwise (f : α → α → α) {g h : RGrid α} {H W : Nat} {Ps Qs : List (Int → Int → α)}
    (hg : g.Holds H W Ps) (hh : h.Holds H W Qs) (ht : g.t = h.t)
    (hn : Ps.length = Qs.length ∨ Ps.length = 1 ∨ Qs.length = 1) (zero garb : α) :
    ∃ r Rs, g.combine f zero garb h = .ok r ∧ r.t = g.t ∧ r.nodata = g.nodata ∧ r.Holds H W Rs ∧
      Rs.length = max Ps.length Qs.length ∧
      ∀ (k : Nat) R P Q, Rs[k]? = some R → spread Ps k = some P → spread Qs k = some Q →
        ∀ y x : Nat, y < H → x < W → R y x = f (P y x) (Q y x) := by
  obtain ⟨A, a1, a2, a3⟩ := read_all hg
  obtain ⟨B, b1, b2, b3⟩ := read_all hh
  have hp : 0 < Ps.length := by rw [← hg.1.1]; exact List.length_pos_iff.2 hg.2
  have hq : 0 < Qs.length := by rw [← hh.1.1]; exact List.length_pos_iff.2 hh.2
  have hmax : (if Ps.length = 1 then Qs.length else Ps.length) = max Ps.length Qs.length := by
    split_ifs <;> omega
  obtain ⟨r, Rs, e, e1, e2, e3, e4, e5⟩ := fromValues_spec zero garb g.t g.nodata
    (⟨[H, W, if Ps.length = 1 then Qs.length else Ps.length], fun
        | [r, c, k] => some (f ((A.get [r, c, if Ps.length = 1 then 0 else k]).getD garb)
            ((B.get [r, c, if Qs.length = 1 then 0 else k]).getD garb))
        | _ => none⟩ : NdArr (Option α)) H W _ (by rw [hmax]; omega) rfl _ (fun _ _ _ _ _ _ => rfl)
  refine ⟨r, Rs, ?_, e1, e2, e3, by rw [e4, hmax], ?_⟩
  · unfold RGrid.combine
    rw [if_pos ⟨ht, by rw [hg.size, hh.size]⟩]
    simp only [a1, b1]
    unfold bandwise
    simp only [a2, b2]
    rw [if_pos ⟨trivial, trivial, hn⟩]
    exact e
  · intro k R P Q hR hP hQ y x hy hx
    rw [e5 k R hR y x hy hx]
    have gA : A.get [y, x, if Ps.length = 1 then 0 else k] = some (P y x) := by
      apply a3 y x _ P hy hx
      unfold spread at hP
      split_ifs at hP ⊢ <;> exact hP
    have gB : B.get [y, x, if Qs.length = 1 then 0 else k] = some (Q y x) := by
      apply b3 y x _ Q hy hx
      unfold spread at hQ
      split_ifs at hQ ⊢ <;> exact hQ
    rw [gA, gB]
    rfl

/-- C113: grids that differ in transform or size are refused. -/
theorem C113_mismatch_refused (f : α → α → α) (g h : RGrid α) (zero garb : α) (hd : g.t ≠ h.t ∨ g.size ≠ h.size) :
    g.combine f zero garb h = .error .valueError := by
  unfold RGrid.combine
  rw [if_neg (by tauto)]

/-- C113: grids with different numbers of bands, neither of them one, are refused. -/
theorem C113_bands_refused (f : α → α → α) {g h : RGrid α} {H W H' W' : Nat} {Ps Qs : List (Int → Int → α)}
    (hg : g.Holds H W Ps) (hh : h.Holds H' W' Qs) (hn : Ps.length ≠ Qs.length) (h1 : Ps.length ≠ 1)
    (h2 : Qs.length ≠ 1) (zero garb : α) : g.combine f zero garb h = .error .valueError := by
  obtain ⟨A, a1, a2, -⟩ := read_all hg
  obtain ⟨B, b1, b2, -⟩ := read_all hh
  unfold RGrid.combine
  split
  · simp only [a1, b1]
    unfold bandwise
    simp only [a2, b2]
    rw [if_neg (by tauto)]
  · rfl

/-- C113: subtracting a grid and adding it again gives back every cell. -/
theorem C113_sub_add {g h : RGrid ℚ} {H W : Nat} {P Q : Int → Int → ℚ}
    (hg : g.Holds H W [P]) (hh : h.Holds H W [Q]) (ht : g.t = h.t) (zero garb : ℚ) :
    ∃ d r R, g.combine (fun a b => a - b) zero garb h = .ok d ∧ d.combine (fun a b => a + b) zero garb h = .ok r ∧
      r.t = g.t ∧ r.nodata = g.nodata ∧ r.Holds H W [R] ∧ ∀ y x : Nat, y < H → x < W → R y x = P y x := by
  obtain ⟨d, Ds, d1, d2, d3, d4, d5, d6⟩ := C113_cellwise (fun a b => a - b) hg hh ht (Or.inl rfl) zero garb
  match Ds, d5 with
  | [D], _ =>
    obtain ⟨r, Rs, r1, r2, r3, r4, r5, r6⟩ := C113_cellwise (fun a b => a + b) d4 hh (d2.trans ht) (Or.inl rfl) zero garb
    match Rs, r5 with
    | [R], _ =>
      refine ⟨d, r, R, d1, r1, r2.trans d2, r3.trans d3, r4, ?_⟩
      intro y x hy hx
      rw [r6 0 R D Q rfl rfl rfl y x hy hx, d6 0 D P Q rfl rfl rfl y x hy hx]
      ring

/-- C113 is violated for missing data: where the left grid has no data the sum is the nodata value plus the
other cell, which reads as data unless that cell is zero. -/
theorem C113_nodata_summed {g h : RGrid ℚ} {H W : Nat} {P Q : Int → Int → ℚ}
    (hg : g.Holds H W [P]) (hh : h.Holds H W [Q]) (ht : g.t = h.t) (zero garb : ℚ) {y x : Nat} (hy : y < H) (hx : x < W)
    (hP : P y x = g.nodata) (hQ : Q y x ≠ 0) :
    ∃ r R, g.combine (fun a b => a + b) zero garb h = .ok r ∧ r.Holds H W [R] ∧ R y x ≠ r.nodata := by
  obtain ⟨d, Ds, d1, d2, d3, d4, d5, d6⟩ := C113_cellwise (fun a b => a + b) hg hh ht (Or.inl rfl) zero garb
  match Ds, d5 with
  | [D], _ =>
    refine ⟨d, D, d1, d4, ?_⟩
    rw [d6 0 D P Q rfl rfl rfl y x hy hx, d3, hP]
    simpa using hQ

/-! ### C114 -/

theorem vmin_spec (q : ℚ) (qs : List ℚ) : (∀ p ∈ q :: qs, vmin q qs ≤ p) ∧ vmin q qs ∈ q :: qs := by
  unfold vmin
  induction qs generalizing q with
  | nil => simp
  | cons a as ih =>
    obtain ⟨h1, h2⟩ := ih (min q a)
    simp only [List.foldl_cons]
    have h3 := h1 _ List.mem_cons_self
    refine ⟨?_, ?_⟩
    · intro p hp
      rcases List.mem_cons.1 hp with rfl | hp
      · exact h3.trans (min_le_left _ _)
      · rcases List.mem_cons.1 hp with rfl | hp
        · exact h3.trans (min_le_right _ _)
        · exact h1 p (List.mem_cons_of_mem _ hp)
    · rcases List.mem_cons.1 h2 with h | h
      · rw [h]
        rcases min_choice q a with e | e <;> rw [e] <;> simp
      · exact List.mem_cons_of_mem _ (List.mem_cons_of_mem _ h)

theorem vmax_spec (q : ℚ) (qs : List ℚ) : (∀ p ∈ q :: qs, p ≤ vmax q qs) ∧ vmax q qs ∈ q :: qs := by
  unfold vmax
  induction qs generalizing q with
  | nil => simp
  | cons a as ih =>
    obtain ⟨h1, h2⟩ := ih (max q a)
    simp only [List.foldl_cons]
    have h3 := h1 _ List.mem_cons_self
    refine ⟨?_, ?_⟩
    · intro p hp
      rcases List.mem_cons.1 hp with rfl | hp
      · exact (le_max_left _ _).trans h3
      · rcases List.mem_cons.1 hp with rfl | hp
        · exact (le_max_right _ _).trans h3
        · exact h1 p (List.mem_cons_of_mem _ hp)
    · rcases List.mem_cons.1 h2 with h | h
      · rw [h]
        rcases max_choice q a with e | e <;> rw [e] <;> simp
      · exact List.mem_cons_of_mem _ (List.mem_cons_of_mem _ h)

/-- What the loop has found: each bound is beyond its start and all points seen, and is the start or
attained by a point. -/
structure DExt.Found (s r : DExt) (pts : List (ℚ × ℚ)) : Prop where
  l0 : r.lx ≤ s.lx
  r0 : s.rx ≤ r.rx
  b0 : r.by' ≤ s.by'
  t0 : s.ty ≤ r.ty
  all : ∀ p ∈ pts, r.lx ≤ p.1 ∧ p.1 ≤ r.rx ∧ r.by' ≤ p.2 ∧ p.2 ≤ r.ty
  l1 : r.lx = s.lx ∨ ∃ p ∈ pts, p.1 = r.lx
  r1 : r.rx = s.rx ∨ ∃ p ∈ pts, p.1 = r.rx
  b1 : r.by' = s.by' ∨ ∃ p ∈ pts, p.2 = r.by'
  t1 : r.ty = s.ty ∨ ∃ p ∈ pts, p.2 = r.ty

theorem row_found (s : DExt) (pts : List (ℚ × ℚ)) : s.Found (s.row pts) pts := by
  cases pts with
  | nil => exact ⟨le_rfl, le_rfl, le_rfl, le_rfl, by simp, Or.inl rfl, Or.inl rfl, Or.inl rfl, Or.inl rfl⟩
  | cons p ps =>
    have hx1 := vmin_spec p.1 (ps.map Prod.fst)
    have hx2 := vmax_spec p.1 (ps.map Prod.fst)
    have hy1 := vmin_spec p.2 (ps.map Prod.snd)
    have hy2 := vmax_spec p.2 (ps.map Prod.snd)
    rw [← List.map_cons] at hx1 hx2 hy1 hy2
    have lo : ∀ {a b c : ℚ}, a ≤ c → (if a < b then a else b) ≤ c := by
      intro a b c h; split_ifs <;> linarith
    have hi : ∀ {a b c : ℚ}, c ≤ a → c ≤ (if a > b then a else b) := by
      intro a b c h; split_ifs <;> linarith
    refine ⟨?_, ?_, ?_, ?_, ?_, ?_, ?_, ?_, ?_⟩
    · simp only [DExt.row]; split_ifs <;> linarith
    · simp only [DExt.row]; split_ifs <;> linarith
    · simp only [DExt.row]; split_ifs <;> linarith
    · simp only [DExt.row]; split_ifs <;> linarith
    · intro q hq
      exact ⟨lo (hx1.1 _ (List.mem_map_of_mem hq)), hi (hx2.1 _ (List.mem_map_of_mem hq)),
        lo (hy1.1 _ (List.mem_map_of_mem hq)), hi (hy2.1 _ (List.mem_map_of_mem hq))⟩
    · simp only [DExt.row]
      split_ifs
      · right; obtain ⟨q, hq, e⟩ := List.mem_map.1 hx1.2; exact ⟨q, hq, e⟩
      · left; rfl
    · simp only [DExt.row]
      split_ifs
      · right; obtain ⟨q, hq, e⟩ := List.mem_map.1 hx2.2; exact ⟨q, hq, e⟩
      · left; rfl
    · simp only [DExt.row]
      split_ifs
      · right; obtain ⟨q, hq, e⟩ := List.mem_map.1 hy1.2; exact ⟨q, hq, e⟩
      · left; rfl
    · simp only [DExt.row]
      split_ifs
      · right; obtain ⟨q, hq, e⟩ := List.mem_map.1 hy2.2; exact ⟨q, hq, e⟩
      · left; rfl

theorem Found.trans {s r q : DExt} {ps qs : List (ℚ × ℚ)} (h : s.Found r ps) (k : r.Found q qs) :
    s.Found q (ps ++ qs) := by
  refine ⟨k.l0.trans h.l0, h.r0.trans k.r0, k.b0.trans h.b0, h.t0.trans k.t0, ?_, ?_, ?_, ?_, ?_⟩
  · intro p hp
    rcases List.mem_append.1 hp with hp | hp
    · obtain ⟨a, b, c, d⟩ := h.all p hp
      exact ⟨k.l0.trans a, b.trans k.r0, k.b0.trans c, d.trans k.t0⟩
    · exact k.all p hp
  · rcases k.l1 with e | ⟨p, hp, e⟩
    · rcases h.l1 with e' | ⟨p, hp, e'⟩
      · exact Or.inl (e.trans e')
      · exact Or.inr ⟨p, List.mem_append_left _ hp, e'.trans e.symm⟩
    · exact Or.inr ⟨p, List.mem_append_right _ hp, e⟩
  · rcases k.r1 with e | ⟨p, hp, e⟩
    · rcases h.r1 with e' | ⟨p, hp, e'⟩
      · exact Or.inl (e.trans e')
      · exact Or.inr ⟨p, List.mem_append_left _ hp, e'.trans e.symm⟩
    · exact Or.inr ⟨p, List.mem_append_right _ hp, e⟩
  · rcases k.b1 with e | ⟨p, hp, e⟩
    · rcases h.b1 with e' | ⟨p, hp, e'⟩
      · exact Or.inl (e.trans e')
      · exact Or.inr ⟨p, List.mem_append_left _ hp, e'.trans e.symm⟩
    · exact Or.inr ⟨p, List.mem_append_right _ hp, e⟩
  · rcases k.t1 with e | ⟨p, hp, e⟩
    · rcases h.t1 with e' | ⟨p, hp, e'⟩
      · exact Or.inl (e.trans e')
      · exact Or.inr ⟨p, List.mem_append_left _ hp, e'.trans e.symm⟩
    · exact Or.inr ⟨p, List.mem_append_right _ hp, e⟩

theorem fold_found (rows : Nat → List (ℚ × ℚ)) (n : Nat) (s : DExt) :
    s.Found ((List.range n).foldl (fun s i => s.row (rows i)) s) ((List.range n).flatMap rows) := by
  induction n with
  | zero => exact ⟨le_rfl, le_rfl, le_rfl, le_rfl, by simp, Or.inl rfl, Or.inl rfl, Or.inl rfl, Or.inl rfl⟩
  | succ n ih =>
    rw [List.range_succ, List.foldl_append, List.flatMap_append]
    simp only [List.foldl_cons, List.foldl_nil, List.flatMap_cons, List.flatMap_nil, List.append_nil]
    exact Found.trans ih (row_found _ _)

/-- Spec: cell `(i, j)` of an `H × W` band holds data. -/
def HasData (P : Int → Int → α) (nd : α) (H W i j : Nat) : Prop := i < H ∧ j < W ∧ P i j ≠ nd

theorem mem_rowData (T : Xform) (nx i : Nat) (d : Nat → Bool) (p : ℚ × ℚ) :
    p ∈ rowData T nx i d ↔ ∃ j : Nat, j < nx ∧ d j = true ∧ p = centerCoord T i j := by
  have e : ∀ j : Nat, (T.x0 + 1 / 2 * T.dx + 1 / 2 * T.sx + (j : ℚ) * T.dx + (i : ℚ) * T.sx,
     T.y0 + 1 / 2 * T.dy + 1 / 2 * T.sy + (i : ℚ) * T.dy + (j : ℚ) * T.sy) = centerCoord T i j := by
    intro j
    simp only [centerCoord, Int.cast_natCast, Prod.mk.injEq]
    constructor <;> ring
  simp only [rowData, List.mem_map, List.mem_filter, List.mem_range, e]
  constructor
  · rintro ⟨j, ⟨h1, h2⟩, rfl⟩; exact ⟨j, h1, h2, rfl⟩
  · rintro ⟨j, h1, h2, rfl⟩; exact ⟨j, ⟨h1, h2⟩, rfl⟩

theorem dataExtent_found [DecidableEq α] {g : RGrid α} {H W : Nat} {P : Int → Int → α} (hg : g.Holds H W [P])
    (garb : α) (nd : Option α) :
    ∃ r pts, (∀ edge, g.dataExtent garb edge nd = .ok (if edge then r.edges g.t else r)) ∧
      (DExt.start g.t H W).Found r pts ∧
      ∀ p, p ∈ pts ↔ ∃ i j : Nat, HasData P (nd.getD g.nodata) H W i j ∧ p = centerCoord g.t i j := by
  obtain ⟨A, a1, a2, a3⟩ := read_all hg
  have hf := fold_found (fun i => rowData g.t W i fun j =>
        decide ((A.get [i, j, 0]).getD garb ≠ nd.getD g.nodata)) H (DExt.start g.t H W)
  refine ⟨_, _, ?_, hf, ?_⟩
  · intro edge
    unfold RGrid.dataExtent
    simp only [a1, hg.size]
    rw [if_neg (by rw [hg.1.1]; simp)]
  · intro p
    simp only [List.mem_flatMap, List.mem_range, mem_rowData]
    constructor
    · rintro ⟨i, hi, j, hj, hd, rfl⟩
      refine ⟨i, j, ⟨hi, hj, ?_⟩, rfl⟩
      rw [a3 i j 0 P hi hj rfl] at hd
      simpa using hd
    · rintro ⟨i, j, ⟨hi, hj, hd⟩, rfl⟩
      refine ⟨i, hi, j, hj, ?_, rfl⟩
      rw [a3 i j 0 P hi hj rfl]
      simpa using hd

/-- C114, cell centres.  For a single-band grid with positive spacing and no skew that holds data, some of
it at a centre with `x` not below the `y` of the first centre: the result is the range of the coordinates
of the centres that hold data.  Missing for the full C114: the cases of the violations below. -/
theorem C114_centers_partial [DecidableEq α] {g : RGrid α} {H W : Nat} {P : Int → Int → α} (hg : g.Holds H W [P])
    (garb : α) (nd : Option α) (hdx : 0 < g.t.dx) (hdy : 0 < g.t.dy) (hsx : g.t.sx = 0) (hsy : g.t.sy = 0)
    (hd : ∃ i j, HasData P (nd.getD g.nodata) H W i j ∧ g.t.y0 + 1 / 2 * g.t.dy ≤ (centerCoord g.t i j).1) :
    ∃ e, g.dataExtent garb false nd = .ok e ∧
      (∀ i j : Nat, HasData P (nd.getD g.nodata) H W i j →
        e.lx ≤ (centerCoord g.t i j).1 ∧ (centerCoord g.t i j).1 ≤ e.rx ∧
        e.by' ≤ (centerCoord g.t i j).2 ∧ (centerCoord g.t i j).2 ≤ e.ty) ∧
      (∃ i j : Nat, HasData P (nd.getD g.nodata) H W i j ∧ (centerCoord g.t i j).1 = e.lx) ∧
      (∃ i j : Nat, HasData P (nd.getD g.nodata) H W i j ∧ (centerCoord g.t i j).1 = e.rx) ∧
      (∃ i j : Nat, HasData P (nd.getD g.nodata) H W i j ∧ (centerCoord g.t i j).2 = e.by') ∧
      (∃ i j : Nat, HasData P (nd.getD g.nodata) H W i j ∧ (centerCoord g.t i j).2 = e.ty) := by
  obtain ⟨r, pts, e, hf, hm⟩ := dataExtent_found hg garb nd
  have hall : ∀ i j : Nat, HasData P (nd.getD g.nodata) H W i j →
        r.lx ≤ (centerCoord g.t i j).1 ∧ (centerCoord g.t i j).1 ≤ r.rx ∧
        r.by' ≤ (centerCoord g.t i j).2 ∧ (centerCoord g.t i j).2 ≤ r.ty :=
    fun i j h => hf.all _ ((hm _).2 ⟨i, j, h, rfl⟩)
  obtain ⟨i, j, ⟨hi, hj, hne⟩, hge⟩ := hd
  have hx : (centerCoord g.t i j).1 = g.t.x0 + ((j : ℚ) + 1 / 2) * g.t.dx := by
    simp [centerCoord, hsx]
  have hy : (centerCoord g.t i j).2 = g.t.y0 + ((i : ℚ) + 1 / 2) * g.t.dy := by
    simp [centerCoord, hsy]
  have cj : (j : ℚ) < W := by exact_mod_cast hj
  have ci : (i : ℚ) < H := by exact_mod_cast hi
  have pj : 0 ≤ (j : ℚ) := by positivity
  have pi' : 0 ≤ (i : ℚ) := by positivity
  obtain ⟨k1, k2, k3, k4⟩ := hall i j ⟨hi, hj, hne⟩
  have conv : ∀ {f : ℚ × ℚ → ℚ} {v : ℚ}, (∃ p ∈ pts, f p = v) →
      ∃ i j : Nat, HasData P (nd.getD g.nodata) H W i j ∧ f (centerCoord g.t i j) = v := by
    rintro f v ⟨p, hp, rfl⟩
    obtain ⟨i, j, h, rfl⟩ := (hm p).1 hp
    exact ⟨i, j, h, rfl⟩
  refine ⟨r, by rw [e]; rfl, hall, ?_, ?_, ?_, ?_⟩
  · rcases hf.l1 with h | h
    · rw [h] at k1
      simp only [DExt.start, hsx] at k1
      rw [hx] at k1
      nlinarith
    · exact conv (f := Prod.fst) h
  · rcases hf.r1 with h | h
    · refine ⟨i, j, ⟨hi, hj, hne⟩, le_antisymm k2 ?_⟩
      rw [h]
      simp only [DExt.start, hsy]
      linarith
    · exact conv (f := Prod.fst) h
  · rcases hf.b1 with h | h
    · rw [h] at k3
      simp only [DExt.start, hsy] at k3
      rw [hy] at k3
      nlinarith
    · exact conv (f := Prod.snd) h
  · rcases hf.t1 with h | h
    · rw [h] at k4
      simp only [DExt.start, hsy] at k4
      rw [hy] at k4
      refine ⟨i, j, ⟨hi, hj, hne⟩, le_antisymm (hall i j ⟨hi, hj, hne⟩).2.2.2 ?_⟩
      rw [h, hy]
      simp only [DExt.start, hsy]
      nlinarith
    · exact conv (f := Prod.snd) h

/-- C114, cell edges (`data_bbox`): under the same conditions the box contains every point of every data
cell, and each of its sides is touched by a data cell. -/
theorem C114_bbox_partial [DecidableEq α] {g : RGrid α} {H W : Nat} {P : Int → Int → α} (hg : g.Holds H W [P])
    (garb : α) (hdx : 0 < g.t.dx) (hdy : 0 < g.t.dy) (hsx : g.t.sx = 0) (hsy : g.t.sy = 0)
    (hd : ∃ i j, HasData P g.nodata H W i j ∧ g.t.y0 + 1 / 2 * g.t.dy ≤ (centerCoord g.t i j).1) :
    ∃ xmin ymin xmax ymax, g.dataBbox garb = .ok (xmin, ymin, xmax, ymax) ∧
      (∀ (i j : Nat) p, HasData P g.nodata H W i j → g.t.InClosedCell i j p →
        xmin ≤ p.1 ∧ p.1 ≤ xmax ∧ ymin ≤ p.2 ∧ p.2 ≤ ymax) ∧
      (∃ (i j : Nat) (p : ℚ × ℚ), HasData P g.nodata H W i j ∧ g.t.InClosedCell i j p ∧ p.1 = xmin) ∧
      (∃ (i j : Nat) (p : ℚ × ℚ), HasData P g.nodata H W i j ∧ g.t.InClosedCell i j p ∧ p.1 = xmax) ∧
      (∃ (i j : Nat) (p : ℚ × ℚ), HasData P g.nodata H W i j ∧ g.t.InClosedCell i j p ∧ p.2 = ymin) ∧
      (∃ (i j : Nat) (p : ℚ × ℚ), HasData P g.nodata H W i j ∧ g.t.InClosedCell i j p ∧ p.2 = ymax) := by
  obtain ⟨e, he, hall, ⟨i1, j1, d1, l1⟩, ⟨i2, j2, d2, l2⟩, ⟨i3, j3, d3, l3⟩, ⟨i4, j4, d4, l4⟩⟩ :=
    C114_centers_partial hg garb none hdx hdy hsx hsy hd
  obtain ⟨r, pts, e', -, -⟩ := dataExtent_found hg garb none
  have hr : r = e := by
    have := e' false
    rw [he] at this
    simpa using this.symm
  subst hr
  have cx : ∀ i j : Nat, (centerCoord g.t i j).1 = g.t.x0 + ((j : ℚ) + 1 / 2) * g.t.dx := by
    intro i j; simp [centerCoord, hsx]
  have cy : ∀ i j : Nat, (centerCoord g.t i j).2 = g.t.y0 + ((i : ℚ) + 1 / 2) * g.t.dy := by
    intro i j; simp [centerCoord, hsy]
  refine ⟨r.lx - 1 / 2 * g.t.dx, r.by' - 1 / 2 * g.t.dy, r.rx + 1 / 2 * g.t.dx, r.ty + 1 / 2 * g.t.dy, ?_, ?_, ?_, ?_, ?_, ?_⟩
  · unfold RGrid.dataBbox
    rw [e' true]
    simp [Except.map, DExt.edges, hsx, hsy]
  · rintro i j p hdat ⟨u, v, h1, h2, h3, h4, rfl⟩
    obtain ⟨k1, k2, k3, k4⟩ := hall i j hdat
    rw [cx] at k1 k2
    rw [cy] at k3 k4
    simp only [Int.cast_natCast] at h1 h2 h3 h4
    simp only [Xform.at, hsx, hsy, mul_zero, add_zero]
    exact ⟨by nlinarith, by nlinarith, by nlinarith, by nlinarith⟩
  · refine ⟨i1, j1, g.t.at i1 j1, d1, ⟨i1, j1, by simp, by simp, by simp, by simp, rfl⟩, ?_⟩
    rw [cx] at l1
    simp only [Xform.at, hsx, mul_zero, add_zero]
    linarith
  · refine ⟨i2, j2, g.t.at i2 (j2 + 1), d2, ⟨i2, j2 + 1, by simp, by simp, by simp, by simp, rfl⟩, ?_⟩
    rw [cx] at l2
    simp only [Xform.at, hsx, mul_zero, add_zero]
    linarith
  · refine ⟨i3, j3, g.t.at i3 j3, d3, ⟨i3, j3, by simp, by simp, by simp, by simp, rfl⟩, ?_⟩
    rw [cy] at l3
    simp only [Xform.at, hsy, mul_zero, add_zero]
    linarith
  · refine ⟨i4, j4, g.t.at (i4 + 1) j4, d4, ⟨i4 + 1, j4, by simp, by simp, by simp, by simp, rfl⟩, ?_⟩
    rw [cy] at l4
    simp only [Xform.at, hsy, mul_zero, add_zero]
    linarith

/-- C114 is violated when every data centre has an `x` below the `y` of the first centre: the right end of
the range is that `y`, which is no `x` of a centre. -/
theorem C114_violated_right [DecidableEq α] {g : RGrid α} {H W : Nat} {P : Int → Int → α} (hg : g.Holds H W [P])
    (garb : α) (nd : Option α) (hsy : g.t.sy = 0)
    (hd : ∀ i j : Nat, HasData P (nd.getD g.nodata) H W i j → (centerCoord g.t i j).1 < g.t.y0 + 1 / 2 * g.t.dy) :
    ∃ e, g.dataExtent garb false nd = .ok e ∧ e.rx = g.t.y0 + 1 / 2 * g.t.dy ∧
      ∀ i j : Nat, HasData P (nd.getD g.nodata) H W i j → (centerCoord g.t i j).1 ≠ e.rx := by
  obtain ⟨r, pts, e, hf, hm⟩ := dataExtent_found hg garb nd
  have hrx : r.rx = g.t.y0 + 1 / 2 * g.t.dy := by
    have h0 := hf.r0
    simp only [DExt.start, hsy, mul_zero, add_zero] at h0
    rcases hf.r1 with h | ⟨p, hp, h⟩
    · rw [h]; simp [DExt.start, hsy]
    · obtain ⟨i, j, hd', rfl⟩ := (hm p).1 hp
      have := hd i j hd'
      linarith
  refine ⟨r, by rw [e]; rfl, hrx, ?_⟩
  intro i j h
  rw [hrx]
  exact (hd i j h).ne

/-- C114 is violated by grids whose rows run southwards: the lower end of the range lies a full row below
the last row, whatever the data. -/
theorem C114_violated_negative_rows [DecidableEq α] {g : RGrid α} {H W : Nat} {P : Int → Int → α} (hg : g.Holds H W [P])
    (garb : α) (nd : Option α) (hdy : g.t.dy < 0) (hsy : g.t.sy = 0) :
    ∃ e, g.dataExtent garb false nd = .ok e ∧ e.by' = g.t.y0 + ((H : ℚ) + 1 / 2) * g.t.dy ∧
      ∀ i j : Nat, i < H → j < W → e.by' < (centerCoord g.t i j).2 := by
  obtain ⟨r, pts, e, hf, hm⟩ := dataExtent_found hg garb nd
  have hcy : ∀ i j : Nat, i < H → g.t.y0 + ((H : ℚ) + 1 / 2) * g.t.dy < (centerCoord g.t i j).2 := by
    intro i j hi
    have ci : (i : ℚ) < H := by exact_mod_cast hi
    simp only [centerCoord, hsy, mul_zero, add_zero, Int.cast_natCast]
    nlinarith
  have hby : r.by' = g.t.y0 + ((H : ℚ) + 1 / 2) * g.t.dy := by
    have h0 := hf.b0
    simp only [DExt.start, hsy, mul_zero, add_zero] at h0
    rcases hf.b1 with h | ⟨p, hp, h⟩
    · rw [h]; simp only [DExt.start, hsy]; ring
    · obtain ⟨i, j, hd', rfl⟩ := (hm p).1 hp
      have := hcy i j hd'.1
      linarith
  refine ⟨r, by rw [e]; rfl, hby, ?_⟩
  intro i j hi _
  rw [hby]
  exact hcy i j hi

/-- C114 is violated by grids of several bands: the call raises. -/
theorem C114_violated_bands [DecidableEq α] {g : RGrid α} {H W : Nat} {Ps : List (Int → Int → α)} (hg : g.Holds H W Ps)
    (garb : α) (edge : Bool) (nd : Option α) (hn : Ps.length ≠ 1) (hH : 0 < H) :
    g.dataExtent garb edge nd = .error .indexError := by
  obtain ⟨A, a1, a2, a3⟩ := read_all hg
  unfold RGrid.dataExtent
  simp only [a1, hg.size]
  rw [if_pos ⟨by rw [hg.1.1]; exact hn, hH⟩]

/-! ### C115 -/

theorem extreme_max (l : List ℚ) : (extreme max l = none ↔ l = []) ∧
    ∀ v, extreme max l = some v → v ∈ l ∧ ∀ w ∈ l, w ≤ v := by
  cases l with
  | nil => simp [extreme]
  | cons a as =>
    refine ⟨by simp [extreme], ?_⟩
    rintro v hv
    simp only [extreme, Option.some.injEq] at hv
    subst hv
    have := vmax_spec a as
    exact ⟨this.2, this.1⟩

theorem extreme_min (l : List ℚ) : (extreme min l = none ↔ l = []) ∧
    ∀ v, extreme min l = some v → v ∈ l ∧ ∀ w ∈ l, v ≤ w := by
  cases l with
  | nil => simp [extreme]
  | cons a as =>
    refine ⟨by simp [extreme], ?_⟩
    rintro v hv
    simp only [extreme, Option.some.injEq] at hv
    subst hv
    have := vmin_spec a as
    exact ⟨this.2, this.1⟩

/-- Spec: cell `(i, j)` holds data in every band. -/
def DataInAll (Ps : List (Int → Int → ℚ)) (nd : ℚ) (H W i j : Nat) : Prop := ∀ P ∈ Ps, HasData P nd H W i j

/-- Spec: `v` is the largest of the values satisfying `S`. -/
def IsMax (S : ℚ → Prop) (v : ℚ) : Prop := S v ∧ ∀ w, S w → w ≤ v

/-- Spec: `v` is the smallest of the values satisfying `S`. -/
def IsMin (S : ℚ → Prop) (v : ℚ) : Prop := S v ∧ ∀ w, S w → v ≤ w

/-- Spec: an optional result is the extreme value of `S`, and is missing exactly when `S` is empty. -/
def Answers (S : ℚ → Prop) (is : ℚ → Prop) (r : Option ℚ) : Prop :=
  (r = none ↔ ∀ v, ¬ S v) ∧ ∀ v, r = some v → is v

theorem answers_max {l : List ℚ} {S : ℚ → Prop} (h : ∀ v, v ∈ l ↔ S v) : Answers S (IsMax S) (extreme max l) := by
  obtain ⟨h1, h2⟩ := extreme_max l
  refine ⟨?_, fun v hv => ⟨(h v).1 (h2 v hv).1, fun w hw => (h2 v hv).2 w ((h w).2 hw)⟩⟩
  rw [h1, List.eq_nil_iff_forall_not_mem]
  simp only [h]

theorem answers_min {l : List ℚ} {S : ℚ → Prop} (h : ∀ v, v ∈ l ↔ S v) : Answers S (IsMin S) (extreme min l) := by
  obtain ⟨h1, h2⟩ := extreme_min l
  refine ⟨?_, fun v hv => ⟨(h v).1 (h2 v hv).1, fun w hw => (h2 v hv).2 w ((h w).2 hw)⟩⟩
  rw [h1, List.eq_nil_iff_forall_not_mem]
  simp only [h]

theorem allBandsMask_spec {g : RGrid ℚ} {H W : Nat} {Ps : List (Int → Int → ℚ)} (hg : g.Holds H W Ps) (garb : ℚ) :
    ∃ m, g.dataMask garb = .ok m ∧ m.ny = H ∧ m.nx = W ∧ ∀ y x : Nat, y < H → x < W →
      (m.get y x = true ↔ DataInAll Ps g.nodata H W y x) := by
  obtain ⟨M, e, hs, hv⟩ := dataMaskFull_spec hg garb
  refine ⟨_, by unfold RGrid.dataMask; rw [e], by simp [hg.size], by simp [hg.size], ?_⟩
  intro y x hy hx
  simp only [List.all_eq_true, List.mem_range]
  constructor
  · intro h P hP
    obtain ⟨k, hk⟩ := List.mem_iff_getElem?.1 hP
    have hk' : k < g.bands.length := by rw [hg.1.1]; exact (List.getElem?_eq_some_iff.1 hk).1
    have := h k hk'
    rw [hv y x k P hy hx hk] at this
    exact ⟨hy, hx, by simpa using this⟩
  · intro h k hk
    have hk' : k < Ps.length := by rw [← hg.1.1]; exact hk
    rw [hv y x k Ps[k] hy hx (List.getElem?_eq_getElem hk')]
    simpa using (h _ (List.getElem_mem hk')).2.2

theorem maskedAll_spec {g : RGrid ℚ} {H W : Nat} {Ps : List (Int → Int → ℚ)} (hg : g.Holds H W Ps) (garb : ℚ) :
    ∃ l, g.maskedAll garb = .ok l ∧ ∀ v, v ∈ l ↔ ∃ i j : Nat, DataInAll Ps g.nodata H W i j ∧ ∃ P ∈ Ps, v = P i j := by
  obtain ⟨m, e, m1, m2, m3⟩ := allBandsMask_spec hg garb
  obtain ⟨A, a1, a2, a3⟩ := getMask2_spec hg.1 hg.2 m m1 m2
  refine ⟨_, by unfold RGrid.maskedAll; simp only [e, a1, a2]; rfl, ?_⟩
  have hin : ∀ {i j : Nat}, DataInAll Ps g.nodata H W i j → i < H ∧ j < W := by
    intro i j h
    obtain ⟨b, hb⟩ := List.exists_mem_of_ne_nil _ hg.2
    have : Ps ≠ [] := by
      intro h0
      have := hg.1.1
      rw [h0] at this
      exact hg.2 (List.length_eq_zero_iff.1 this)
    obtain ⟨P, hP⟩ := List.exists_mem_of_ne_nil _ this
    exact ⟨(h P hP).1, (h P hP).2.1⟩
  intro v
  simp only [List.mem_flatMap, List.mem_range, List.mem_map]
  constructor
  · rintro ⟨t, ht, k, hk, rfl⟩
    obtain ⟨⟨y, x⟩, hyx⟩ : ∃ q, (maskIdx m)[t]? = some q := ⟨_, List.getElem?_eq_getElem ht⟩
    have hk' : k < Ps.length := by rw [← hg.1.1]; exact hk
    have hmem := mem_maskIdx.1 (List.mem_of_getElem? hyx)
    rw [m1, m2] at hmem
    refine ⟨y, x, (m3 y x hmem.1 hmem.2.1).1 hmem.2.2, Ps[k], List.getElem_mem hk', ?_⟩
    rw [a3 t y x k Ps[k] hyx (List.getElem?_eq_getElem hk')]
    rfl
  · rintro ⟨i, j, hd, P, hP, rfl⟩
    obtain ⟨hi, hj⟩ := hin hd
    have hmem : (i, j) ∈ maskIdx m := mem_maskIdx.2 ⟨by omega, by omega, (m3 i j hi hj).2 hd⟩
    obtain ⟨t, ht⟩ := List.mem_iff_getElem?.1 hmem
    obtain ⟨k, hk⟩ := List.mem_iff_getElem?.1 hP
    refine ⟨t, (List.getElem?_eq_some_iff.1 ht).1, k, by rw [hg.1.1]; exact (List.getElem?_eq_some_iff.1 hk).1, ?_⟩
    rw [a3 t i j k P ht hk]
    rfl

/-- C115, `max` and `min`: for every grid they are the largest and smallest of the values, in any band, of
the cells that hold data in every band; NaN exactly when there is no such cell. -/
theorem C115_max_min {g : RGrid ℚ} {H W : Nat} {Ps : List (Int → Int → ℚ)} (hg : g.Holds H W Ps) (garb : ℚ) :
    ∃ mx mn, g.maxValue garb = .ok mx ∧ g.minValue garb = .ok mn ∧
      Answers (fun v => ∃ i j : Nat, DataInAll Ps g.nodata H W i j ∧ ∃ P ∈ Ps, v = P i j)
        (IsMax fun v => ∃ i j : Nat, DataInAll Ps g.nodata H W i j ∧ ∃ P ∈ Ps, v = P i j) mx ∧
      Answers (fun v => ∃ i j : Nat, DataInAll Ps g.nodata H W i j ∧ ∃ P ∈ Ps, v = P i j)
        (IsMin fun v => ∃ i j : Nat, DataInAll Ps g.nodata H W i j ∧ ∃ P ∈ Ps, v = P i j) mn := by
  obtain ⟨l, e, h⟩ := maskedAll_spec hg garb
  exact ⟨extreme max l, extreme min l, by simp [RGrid.maxValue, e, Except.map], by simp [RGrid.minValue, e, Except.map],
    answers_max h, answers_min h⟩

/-- C115, `minmax`: for every grid the two results are the smallest and largest data values of all bands;
NaN exactly when no band holds data. -/
theorem C115_minmax {g : RGrid ℚ} {H W : Nat} {Ps : List (Int → Int → ℚ)} (hg : g.Holds H W Ps) (garb : ℚ) :
    ∃ mn mx, g.minmax garb = .ok (mn, mx) ∧
      Answers (fun v => ∃ P ∈ Ps, ∃ i j : Nat, HasData P g.nodata H W i j ∧ v = P i j)
        (IsMin fun v => ∃ P ∈ Ps, ∃ i j : Nat, HasData P g.nodata H W i j ∧ v = P i j) mn ∧
      Answers (fun v => ∃ P ∈ Ps, ∃ i j : Nat, HasData P g.nodata H W i j ∧ v = P i j)
        (IsMax fun v => ∃ P ∈ Ps, ∃ i j : Nat, HasData P g.nodata H W i j ∧ v = P i j) mx := by
  obtain ⟨M, e, hs, hv⟩ := dataMaskFull_spec hg garb
  obtain ⟨res, r1, r2, r3⟩ := getMask3_spec hg.1 hg.2 (fun k => ⟨H, W, fun r c => M.get [r, c, k]⟩)
  have hmem : ∀ v, v ∈ res.map (fun v => v.getD garb) ↔
      ∃ P ∈ Ps, ∃ i j : Nat, HasData P g.nodata H W i j ∧ v = P i j := by
    have hidx : ∀ y x k : Nat, (y, x, k) ∈ maskIdx3 H W g.bands.length (fun k => ⟨H, W, fun r c => M.get [r, c, k]⟩) ↔
        y < H ∧ x < W ∧ k < g.bands.length ∧ M.get [y, x, k] = true := by
      intro y x k
      unfold maskIdx3
      simp only [List.mem_flatMap, List.mem_range, List.mem_map, List.mem_filter, Prod.mk.injEq]
      constructor
      · rintro ⟨a, ha, b, hb, c, ⟨hc, hm⟩, rfl, rfl, rfl⟩; exact ⟨ha, hb, hc, hm⟩
      · rintro ⟨ha, hb, hc, hm⟩; exact ⟨y, ha, x, hb, k, ⟨hc, hm⟩, rfl, rfl, rfl⟩
    intro v
    constructor
    · intro h
      obtain ⟨o, ho, rfl⟩ := List.mem_map.1 h
      obtain ⟨t, ht⟩ := List.mem_iff_getElem?.1 ho
      have ht' : t < (maskIdx3 H W g.bands.length (fun k => ⟨H, W, fun r c => M.get [r, c, k]⟩)).length := by
        rw [← r2]; exact (List.getElem?_eq_some_iff.1 ht).1
      obtain ⟨⟨y, x, k⟩, hq⟩ : ∃ q, (maskIdx3 H W g.bands.length (fun k => ⟨H, W, fun r c => M.get [r, c, k]⟩))[t]? = some q :=
        ⟨_, List.getElem?_eq_getElem ht'⟩
      obtain ⟨hy, hx, hk, hm⟩ := (hidx y x k).1 (List.mem_of_getElem? hq)
      have hk' : k < Ps.length := by rw [← hg.1.1]; exact hk
      have := r3 t y x k Ps[k] hq (List.getElem?_eq_getElem hk')
      rw [ht] at this
      cases this
      rw [hv y x k Ps[k] hy hx (List.getElem?_eq_getElem hk')] at hm
      exact ⟨Ps[k], List.getElem_mem hk', y, x, ⟨hy, hx, by simpa using hm⟩, rfl⟩
    · rintro ⟨P, hP, i, j, ⟨hi, hj, hne⟩, rfl⟩
      obtain ⟨k, hk⟩ := List.mem_iff_getElem?.1 hP
      have hk' : k < g.bands.length := by rw [hg.1.1]; exact (List.getElem?_eq_some_iff.1 hk).1
      obtain ⟨t, ht⟩ := List.mem_iff_getElem?.1 ((hidx i j k).2 ⟨hi, hj, hk', by
        rw [hv i j k P hi hj hk]; simpa using hne⟩)
      exact List.mem_map.2 ⟨_, List.mem_of_getElem? (r3 t i j k P ht hk), rfl⟩
  refine ⟨_, _, ?_, answers_min hmem, answers_max hmem⟩
  unfold RGrid.minmax
  simp only [e, hg.size, r1]

/-- C115 is violated by `max` on grids of several bands: when no cell holds data in all bands the result is
NaN, although some band holds data and `minmax` finds it. -/
theorem C115_violated_bands {g : RGrid ℚ} {H W : Nat} {Ps : List (Int → Int → ℚ)} (hg : g.Holds H W Ps) (garb : ℚ)
    (hno : ∀ i j : Nat, ¬ DataInAll Ps g.nodata H W i j) (P : Int → Int → ℚ) (hP : P ∈ Ps) (i j : Nat)
    (hd : HasData P g.nodata H W i j) :
    g.maxValue garb = .ok none ∧ g.minValue garb = .ok none ∧
      ∃ mn mx, g.minmax garb = .ok (some mn, some mx) ∧ mn ≤ P i j ∧ P i j ≤ mx := by
  obtain ⟨mx, mn, e1, e2, a1, a2⟩ := C115_max_min hg garb
  obtain ⟨mn', mx', e3, b1, b2⟩ := C115_minmax hg garb
  have h1 : mx = none := a1.1.2 (by rintro v ⟨i, j, h, -⟩; exact hno i j h)
  have h2 : mn = none := a2.1.2 (by rintro v ⟨i, j, h, -⟩; exact hno i j h)
  subst h1 h2
  refine ⟨e1, e2, ?_⟩
  cases mn' with
  | none => exact absurd ⟨P, hP, i, j, hd, rfl⟩ (b1.1.1 rfl (P i j))
  | some lo =>
    cases mx' with
    | none => exact absurd ⟨P, hP, i, j, hd, rfl⟩ (b2.1.1 rfl (P i j))
    | some hi => exact ⟨lo, hi, e3, (b1.2 lo rfl).2 _ ⟨P, hP, i, j, hd, rfl⟩, (b2.2 hi rfl).2 _ ⟨P, hP, i, j, hd, rfl⟩⟩

/-! ### C116 -/

/-- C116, nearest method, one band, several columns or one row, when some cell of the shifted grid has its
centre inside a cell of the old one.  The new anchor is the multiple of `(x, y)` nearest to the old one, the
size, spacing and skew are kept, and every cell holds the value of an old cell containing its centre, or
nodata when there is none.  Missing for the full C116: several bands and one column of several rows (as for
C110), and shifts that take every centre off the grid, which raise. -/
theorem C116_align_origin_partial {g : RGrid α} {H W : Nat} {P : Int → Int → α} (hg : g.Holds H W [P])
    (hH : 0 < H) (hW : 0 < W) (hT : g.t.Regular) (zero garb : α) (kern : Arr α → ℚ → ℚ → Except Err α)
    (x y : ℚ) (hx : x ≠ 0) (hy : y ≠ 0) (hsz : 1 < W ∨ H = 1)
    (hin : ∃ i j a b : Nat, i < H ∧ j < W ∧ a < H ∧ b < W ∧ g.t.InCell a b
      (centerCoord { g.t with x0 := x * (rint (g.t.x0 / x) : ℚ), y0 := y * (rint (g.t.y0 / y) : ℚ) } i j)) :
    ∃ g' P' m n, g.alignOrigin zero garb kern x y .nearest = some (.ok g') ∧ g'.Holds H W [P'] ∧ g'.nodata = g.nodata ∧
      g'.t = { g.t with x0 := (m : Int) * x, y0 := (n : Int) * y } ∧
      |g'.t.x0 - g.t.x0| ≤ |x| / 2 ∧ |g'.t.y0 - g.t.y0| ≤ |y| / 2 ∧
      ∀ i j : Nat, i < H → j < W → ∃ a b, g.t.InClosedCell a b (centerCoord g'.t i j) ∧
        P' i j = cellValue H W g.nodata P a b := by
  obtain ⟨i, j, a, b, hi, hj, ha, hb, hc⟩ := hin
  obtain ⟨g', P', e, e1, e2, e3, e4⟩ := resampleOnto_nearest hg hT zero garb kern
    { g.t with x0 := x * (rint (g.t.x0 / x) : ℚ), y0 := y * (rint (g.t.y0 / y) : ℚ) } H W hH hW hsz
    ⟨_, mem_centres _ hi hj, a, b, ha, hb, hc⟩
  have near : ∀ {c z : ℚ}, z ≠ 0 → |z * (rint (c / z) : ℚ) - c| ≤ |z| / 2 := by
    intro c z hz
    have h1 := rint_near (c / z)
    have h2 : z * (rint (c / z) : ℚ) - c = -(z * (c / z - (rint (c / z) : ℚ))) := by
      have : z * (c / z) = c := mul_div_cancel₀ c hz
      linear_combination this
    rw [h2, abs_neg, abs_mul]
    nlinarith [abs_nonneg z]
  refine ⟨g', P', rint (g.t.x0 / x), rint (g.t.y0 / y), ?_, e3, e2, ?_, ?_, ?_, ?_⟩
  · unfold RGrid.alignOrigin
    rw [if_neg (by tauto)]
    simp only [hg.size]
    exact e
  · rw [e1, mul_comm x, mul_comm y]
  · rw [e1]; exact near hx
  · rw [e1]; exact near hy
  · rw [e1]; exact e4

/-! ### Cases that meet the hypotheses -/

/-- There are grids of one band with any transform, size and values. -/
theorem exists_single (t : Xform) (nd : ℚ) (H W : Nat) (V : Nat → Nat → ℚ) :
    ∃ (g : RGrid ℚ) (P : Int → Int → ℚ), g.t = t ∧ g.nodata = nd ∧ g.Holds H W [P] ∧
      ∀ y x : Nat, y < H → x < W → P y x = V y x := by
  obtain ⟨g, P, -, h1, h2, h3, h4⟩ := fromValues2_spec 0 0 t nd
    (⟨[H, W], fun
      | [y, x] => some (V y x)
      | _ => none⟩ : NdArr (Option ℚ)) H W rfl V (fun _ _ _ _ => rfl)
  exact ⟨g, P, h1, h2, h3, h4⟩

/-- A transform with rows running south. -/
def exPlain : Xform := ⟨1, 20, 3, -2, 0, 0⟩
theorem exPlain_plain : exPlain.Plain := ⟨by norm_num [exPlain], by norm_num [exPlain], rfl, rfl⟩

/-- Its 4 × 5 centres range over `[5/2, 29/2] × [13, 19]`. -/
theorem exPlain_box : Box exPlain 4 5 (5 / 2) (29 / 2) 13 19 := by
  have h := plain_box exPlain_plain (H := 4) (W := 5) (by norm_num) (by norm_num)
  norm_num [exPlain, along] at h
  exact h

/-- C110 and C112: the grid above resampled to spacing 2 by 3/2. -/
example : ∃ g P, g.t = exPlain ∧ RGrid.Holds (α := ℚ) g 4 5 [P] ∧
    (∃ g' ny nx P', g.resample 0 0 (kernelDouble g.nodata) 2 (3 / 2) .nearest = some (.ok g') ∧
      RGrid.Holds g' ny nx [P'] ∧ g'.t.dx = 2) ∧
    (∃ g' ny nx P', g.resample 0 0 (kernelDouble g.nodata) 2 (3 / 2) .linear = some (.ok g') ∧
      RGrid.Holds g' ny nx P' ∧ g'.t.dx = 2) := by
  obtain ⟨g, P, h1, -, h3, -⟩ := exists_single exPlain (-9) 4 5 fun y x => 10 * y + x
  have hT : g.t.Plain := by rw [h1]; exact exPlain_plain
  have hb : Box g.t 4 5 (5 / 2) (29 / 2) 13 19 := by rw [h1]; exact exPlain_box
  obtain ⟨a, ny, nx, P', e, hh, -, ed, -⟩ := C110_nearest_partial h3 (by norm_num) (by norm_num) hT hb 0 0
    (kernelDouble g.nodata) 2 (3 / 2) (by norm_num) (by norm_num) (by norm_num)
  obtain ⟨a', ny', nx', P'', e', hh', -, -, ed', -⟩ := C112_linear_partial h3 (by simp) (by norm_num) (by norm_num) hT hb 0 0
    2 (3 / 2) (by norm_num) (by norm_num) (by norm_num) (by norm_num)
  exact ⟨g, P, h1, h3, ⟨a, ny, nx, P', e, hh, ed⟩, ⟨a', ny', nx', P'', e', hh', ed'⟩⟩

/-- C110, violations: one column, two bands. -/
example : ∃ (g : RGrid ℚ) (P : Int → Int → ℚ), g.t = exPlain ∧ g.Holds 4 5 [P] ∧
    ∃ g' n P', g.resample 0 0 (kernelDouble 0) 100 1 .nearest = some (.ok g') ∧ 2 ≤ n ∧ RGrid.Holds g' 1 n [P'] := by
  obtain ⟨g, P, h1, -, h3, -⟩ := exists_single exPlain (-9) 4 5 fun y x => 10 * y + x
  have hT : g.t.Plain := by rw [h1]; exact exPlain_plain
  have hb : Box g.t 4 5 (5 / 2) (29 / 2) 13 19 := by rw [h1]; exact exPlain_box
  exact ⟨g, P, h1, h3, C110_violated_single_column h3 (by norm_num) (by norm_num) hT hb 0 0 (kernelDouble 0) 100 1
    (by norm_num) (by norm_num) (by norm_num)⟩

/-- The value 100 of the second band, first centre, in the first band of the result. -/
example : ∃ (g g' : RGrid ℚ) (ny nx : Nat) (P' : Int → Int → ℚ) (Ps' : List (Int → Int → ℚ)), g.t = exPlain ∧
    g.resample 0 0 (kernelDouble 0) 1 1 .nearest = some (.ok g') ∧ g'.Holds ny nx (P' :: Ps') ∧ 100 ≤ P' 0 1 := by
  obtain ⟨g, Ps, h1, h2, h3, h4, h5⟩ := exists_grid exPlain (-9) 4 5
  have hT : g.t.Plain := by rw [h1]; exact exPlain_plain
  have hb : Box g.t 4 5 (5 / 2) (29 / 2) 13 19 := by rw [h1]; exact exPlain_box
  match Ps, h4 with
  | [P0, P1], _ =>
    obtain ⟨g', ny, nx, P', Ps', a, b, e, hh, hc, hv⟩ := C110_violated_bands h3 (by norm_num) (by norm_num) hT hb 0 0
      (kernelDouble 0) 1 1 (by norm_num) (by norm_num) (by norm_num) (by norm_num)
    refine ⟨g, g', ny, nx, P', Ps', h1, e, hh, ?_⟩
    obtain ⟨a', ny', nx', P'', e', -, -, -, -, -, -, -, -, c0, -⟩ :
        ∃ a' ny' nx' P'', g.resample 0 0 (kernelDouble 0) 1 1 .nearest = some (.ok a') ∧ True ∧ True ∧ True ∧ True ∧ True ∧
          True ∧ True ∧ True ∧ centerCoord a'.t 0 0 = (5 / 2, 13) ∧ (ny' : Nat) = 0 ∧ (nx' : Nat) = 0 ∧ (P'' : Nat) = 0 := by
      refine ⟨g', 0, 0, 0, e, trivial, trivial, trivial, trivial, trivial, trivial, trivial, trivial, ?_, rfl, rfl, rfl⟩
      have hgt : g'.t = resampledXform g.t 4 5 1 1 := by
        unfold RGrid.resample at e
        rw [if_neg (by norm_num)] at e
        simp only [h3.size] at e
        unfold RGrid.resampleOnto at e
        rw [resampled_size hT (by norm_num) (by norm_num) hb, coordsAll_eq _ (by norm_num) (by norm_num)] at e
        simp only [RGrid.sampleBy] at e
        generalize g.sampleNearest 0 _ = o at e
        match o, e with
        | some (.ok out), e =>
          simp only [Option.map_some, Option.some.injEq] at e
          unfold fromValues at e
          split at e
          · split at e
            · cases e
            · cases e; rfl
          · split at e
            · cases e
            · cases e; rfl
          · cases e
        | some (.error er), e => simp at e
        | none, e => simp at e
      rw [hgt, resampled_centre hT (by norm_num) (by norm_num) hb]
      simp
    rw [e] at e'
    cases e'
    rw [c0] at hc
    obtain ⟨i, j, hi, hj, e00⟩ := first_centre hT hb
    rw [← e00] at hc
    obtain ⟨q1, q2⟩ := closed_cell_unique hT.regular (centre_inCell _ _) hc
    rw [hv, q1, q2, cellValue, if_pos (by omega), h5 1 P1 rfl i j hi hj]
    have : (0 : ℚ) ≤ 10 * i + j := by positivity
    push_cast
    linarith

/-- C110, skew: a 3 × 3 grid whose rows move one unit to the right. -/
example : 3 / 2 + 3 < (centerCoord (resampledXform ⟨0, 0, 1, 1, 1, 0⟩ 3 3 1 1)
    (((resampledSize ⟨0, 0, 1, 1, 1, 0⟩ 3 3 1 1).1 : Int) - 1)
    (((resampledSize ⟨0, 0, 1, 1, 1, 0⟩ 3 3 1 1).2 : Int) - 1)).1 :=
  by decide +kernel

/-- C111: the grid above at its own spacing. -/
example : ∃ (g : RGrid ℚ) (P : Int → Int → ℚ), g.t = exPlain ∧ g.Holds 4 5 [P] ∧
    ∃ g' P', g.resample 0 0 (kernelDouble 0) 3 2 .nearest = some (.ok g') ∧ RGrid.Holds g' 4 5 [P'] := by
  obtain ⟨g, P, h1, -, h3, -⟩ := exists_single exPlain (-9) 4 5 fun y x => 10 * y + x
  obtain ⟨g', P', e, hh, -⟩ := C111_own_spacing_partial h3 (by norm_num) (by norm_num)
    (by rw [h1]; exact exPlain_plain) 0 0 (kernelDouble 0) (by norm_num)
  rw [h1] at e
  norm_num [exPlain] at e
  exact ⟨g, P, h1, h3, g', P', e, hh⟩

/-- C113: a grid plus itself, and a missing cell that reads as data in the sum. -/
example : ∃ (g r : RGrid ℚ) (R : Int → Int → ℚ), g.combine (fun a b => a + b) 0 0 g = .ok r ∧ r.Holds 4 5 [R] ∧
    R ((2 : Nat) : Int) ((1 : Nat) : Int) = 42 ∧ R ((0 : Nat) : Int) ((3 : Nat) : Int) ≠ r.nodata := by
  obtain ⟨g, P, h1, h2, h3, h4⟩ := exists_single exPlain 3 4 5 fun y x => 10 * y + x
  obtain ⟨r, Rs, e, -, hn, hh, hl, hv⟩ := C113_cellwise (fun a b => a + b) h3 h3 rfl (Or.inl rfl) 0 0
  match Rs, hl with
  | [R], _ =>
    refine ⟨g, r, R, e, hh, ?_, ?_⟩
    · rw [hv 0 R P P rfl rfl rfl 2 1 (by norm_num) (by norm_num), h4 2 1 (by norm_num) (by norm_num)]
      norm_num
    · rw [hv 0 R P P rfl rfl rfl 0 3 (by norm_num) (by norm_num), h4 0 3 (by norm_num) (by norm_num), hn, h2]
      norm_num

/-- C114: a grid with data in some cells, and the same grid further north. -/
example : ∃ (g : RGrid ℚ) (P : Int → Int → ℚ), g.Holds 2 2 [P] ∧ 0 < g.t.dx ∧ 0 < g.t.dy ∧ g.t.sx = 0 ∧ g.t.sy = 0 ∧
    ∃ i j, HasData P g.nodata 2 2 i j ∧ g.t.y0 + 1 / 2 * g.t.dy ≤ (centerCoord g.t i j).1 := by
  obtain ⟨g, P, h1, h2, h3, h4⟩ := exists_single ⟨0, 0, 1, 1, 0, 0⟩ 3 2 2 fun y x => if y = 1 ∧ x = 1 then 7 else 3
  refine ⟨g, P, h3, by rw [h1]; norm_num, by rw [h1]; norm_num, by rw [h1], by rw [h1], 1, 1,
    ⟨by norm_num, by norm_num, ?_⟩, ?_⟩
  · rw [h4 1 1 (by norm_num) (by norm_num), h2]; norm_num
  · rw [h1]; norm_num [centerCoord]

example : ∃ (g : RGrid ℚ) (P : Int → Int → ℚ), g.Holds 2 2 [P] ∧ (∃ i j, HasData P g.nodata 2 2 i j) ∧
    ∀ i j : Nat, HasData P g.nodata 2 2 i j → (centerCoord g.t i j).1 < g.t.y0 + 1 / 2 * g.t.dy := by
  obtain ⟨g, P, h1, h2, h3, h4⟩ := exists_single ⟨0, 10, 1, 1, 0, 0⟩ 3 2 2 fun y x => if y = 1 ∧ x = 1 then 7 else 3
  refine ⟨g, P, h3, ⟨1, 1, by norm_num, by norm_num, ?_⟩, ?_⟩
  · rw [h4 1 1 (by norm_num) (by norm_num), h2]; norm_num
  · rintro i j ⟨hi, hj, -⟩
    rw [h1]
    have : (j : ℚ) < 2 := by exact_mod_cast hj
    simp only [centerCoord, Int.cast_natCast]
    linarith

/-- C115: two bands that never hold data at the same cell. -/
example : ∃ (g : RGrid ℚ) (Ps : List (Int → Int → ℚ)), g.Holds 1 2 Ps ∧
    (∀ i j : Nat, ¬ DataInAll Ps g.nodata 1 2 i j) ∧ ∃ P ∈ Ps, ∃ i j, HasData P g.nodata 1 2 i j := by
  obtain ⟨g, Ps, -, h1, h2, h3, h4, h5⟩ := fromValues_spec (α := ℚ) 0 0 exPlain 0
    (⟨[1, 2, 2], fun
      | [_, x, k] => some (if x = k then 5 else 0 : ℚ)
      | _ => none⟩ : NdArr (Option ℚ)) 1 2 2 (by norm_num) rfl (fun _ x k => if x = k then 5 else 0)
    (fun y x k _ _ _ => rfl)
  match Ps, h4 with
  | [P, Q], _ =>
    refine ⟨g, [P, Q], h3, ?_, P, by simp, 0, 0, by norm_num, by norm_num, ?_⟩
    · intro i j h
      obtain ⟨hi, hj, hP⟩ := h P (by simp)
      obtain ⟨-, -, hQ⟩ := h Q (by simp)
      rw [h2, h5 0 P rfl i j hi hj] at hP
      rw [h2, h5 1 Q rfl i j hi hj] at hQ
      have a : j = 0 := by by_contra hne; simp [hne] at hP
      have b : j = 1 := by by_contra hne; simp [hne] at hQ
      omega
    · rw [h2, h5 0 P rfl 0 0 (by norm_num) (by norm_num)]; norm_num

/-- C116: the docstring's example, anchor `(3.2, 3.2)` and steps of 1: the anchor becomes `(3, 3)`. -/
example : ∃ (g : RGrid ℚ) (P : Int → Int → ℚ), g.Holds 4 4 [P] ∧ ∃ g' P', g.alignOrigin 0 0 (kernelDouble 0) 1 1 .nearest = some (.ok g') ∧
    g'.t = ⟨3, 3, 1, 1, 0, 0⟩ ∧ RGrid.Holds g' 4 4 [P'] := by
  obtain ⟨g, P, h1, h2, h3, h4⟩ := exists_single ⟨16 / 5, 16 / 5, 1, 1, 0, 0⟩ 3 4 4 fun y x => 10 * y + x
  have hr : rint (16 / 5) = 3 := by decide +kernel
  obtain ⟨g', P', m, n, e, hh, -, et, b1, b2, -⟩ := C116_align_origin_partial h3 (by norm_num) (by norm_num)
    (by rw [h1]; constructor <;> norm_num) 0 0 (kernelDouble 0) 1 1 one_ne_zero one_ne_zero (by norm_num)
    ⟨1, 1, 1, 1, by norm_num, by norm_num, by norm_num, by norm_num, by
      rw [h1]
      norm_num [hr]
      refine ⟨13 / 10, 13 / 10, by norm_num, by norm_num, by norm_num, by norm_num, ?_⟩
      norm_num [centerCoord, Xform.at]⟩
  refine ⟨g, P, h3, g', P', e, ?_, hh⟩
  rw [et, h1] at b1 b2
  rw [et, h1]
  norm_num at b1 b2 ⊢
  rw [abs_le] at b1 b2
  constructor
  · have l1 : ((2 : Int) : ℚ) < m := by push_cast; linarith
    have l2 : (m : ℚ) < ((4 : Int) : ℚ) := by push_cast; linarith
    have l1' : (2 : Int) < m := by exact_mod_cast l1
    have l2' : m < (4 : Int) := by exact_mod_cast l2
    have : m = 3 := by omega
    rw [this]; norm_num
  · have l1 : ((2 : Int) : ℚ) < n := by push_cast; linarith
    have l2 : (n : ℚ) < ((4 : Int) : ℚ) := by push_cast; linarith
    have l1' : (2 : Int) < n := by exact_mod_cast l1
    have l2' : n < (4 : Int) := by exact_mod_cast l2
    have : n = 3 := by omega
    rw [this]; norm_num

end Karta.Grid
