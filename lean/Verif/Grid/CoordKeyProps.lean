import Verif.Grid.CoordKey
import Verif.Grid.CoordProps
import Verif.Band.IndexerProps

/-!
Property C151: `grid.coordinates()[i, j]` gives the coordinates of the cells that `grid[i, j]` reads.
-/

namespace Karta.Grid
open Karta Karta.Band Karta.Band.Spec Karta.Band.Indexer

/-! ### Specification -/

/-- What coordinates are wanted in: the grid's own system (none given, or an equal one), or another
one with a conversion. -/
def wanted (crs : Option (Bool × (ℚ → ℚ → ℚ × ℚ))) (p : ℚ × ℚ) : ℚ × ℚ :=
  match crs with
  | none => p
  | some (true, _) => p
  | some (false, tr) => tr p.1 p.2

/-- A key that is not a negative integer. -/
def NotNegative : Key → Prop
  | .int i => 0 ≤ i
  | .slice _ => True

/-! ### Lemmas -/

theorem wanted_eq (T : Xform) (crs : Option (Bool × (ℚ → ℚ → ℚ × ℚ))) (i j : Int) :
    genAt T (chosen crs) i j = wanted crs (centerCoord T i j) := by
  rw [← (C09_coordinate_generator_agrees T i j).1]
  rcases crs with _ | ⟨_ | _, tr⟩ <;> simp [genAt, wanted, chosen, transformer]

theorem expand_of_positions {n : Nat} {k : Key} {l : List Int} (h : Spec.positions n k = some l)
    (hk : NotNegative k) :
    (∃ i, k = .int i ∧ l = [i] ∧ expandKey n k = .ok (.scalar i)) ∨
    (k.isInt = false ∧ expandKey n k = .ok (.array l)) := by
  cases k with
  | int i =>
    left
    simp only [Spec.positions] at h
    by_cases h0 : 0 ≤ i ∧ i < n
    · rw [if_pos h0] at h
      exact ⟨i, rfl, (Option.some.inj h).symm, rfl⟩
    · rw [if_neg h0, if_neg (fun h1 => absurd hk (by simp only [NotNegative]; omega))] at h
      cases h
  | slice s =>
    right
    refine ⟨rfl, ?_⟩
    simp only [Spec.positions] at h
    simp only [expandKey]
    cases hs : s.indices n with
    | error e => rw [hs] at h; cases h
    | ok t =>
      obtain ⟨a, b, c⟩ := t
      rw [hs] at h
      rw [← Option.some.inj h]

theorem getD_of_get? {l : List Int} {a : Nat} {y : Int} (h : l[a]? = some y) : l.getD a 0 = y := by
  simp [List.getD, h]

/-! ### C151 -/

/-- **C151 (partial).** Full statement: for every pair of keys that addresses cells of the grid,
`grid.coordinates(crs)[ky, kx]` has the shape of the selection and holds the centre of each addressed
cell, converted to the coordinate system asked for.  Proved for slices of every kind and for integers
that are not negative, where of two slices each selects more than one row or column; the other cases
are `C151_violated_…`. -/
theorem C151_cells_partial (T : Xform) (ny nx : Nat) (crs : Option (Bool × (ℚ → ℚ → ℚ × ℚ)))
    (ky kx : Key) (rows cols : List Int)
    (hy : Spec.positions ny ky = some rows) (hx : Spec.positions nx kx = some cols)
    (ky0 : NotNegative ky) (kx0 : NotNegative kx)
    (hlen : ky.isInt = false → kx.isInt = false → 1 < rows.length ∧ 1 < cols.length) :
    ∃ res, coordinatesAt T ny nx crs ky kx = .ok res ∧
      res.shape = keep ky rows.length ++ keep kx cols.length ∧
      ∀ (a b : Nat) (y x : Int), rows[a]? = some y → cols[b]? = some x →
        res.get (keep ky a ++ keep kx b) = wanted crs (centerCoord T y x) := by
  have W := wanted_eq T crs
  have ki : ∀ i, (Key.int i).isInt = true := fun _ => rfl
  unfold coordinatesAt coordGenGet
  rcases expand_of_positions hy ky0 with ⟨i, rfl, rfl, ei⟩ | ⟨ky1, ei⟩ <;>
    rcases expand_of_positions hx kx0 with ⟨j, rfl, rfl, ej⟩ | ⟨kx1, ej⟩ <;>
    rw [ei, ej] <;> dsimp only
  · refine ⟨_, rfl, rfl, fun a b y x ha hb => ?_⟩
    have e1 : y = i := by
      cases a with
      | zero => simpa using ha.symm
      | succ a => simp at ha
    have e2 : x = j := by
      cases b with
      | zero => simpa using hb.symm
      | succ b => simp at hb
    rw [e1, e2]
    exact W i j
  · refine ⟨_, rfl, by simp [keep, kx1, ki], fun a b y x ha hb => ?_⟩
    have e1 : y = i := by
      cases a with
      | zero => simpa using ha.symm
      | succ a => simp at ha
    have e : keep (.int i) a ++ keep kx b = [b] := by simp [keep, kx1, ki]
    rw [e, e1]
    show genAt T _ i (cols.getD b 0) = _
    rw [getD_of_get? hb]
    exact W i x
  · refine ⟨_, rfl, by simp [keep, ky1, ki], fun a b y x ha hb => ?_⟩
    have e2 : x = j := by
      cases b with
      | zero => simpa using hb.symm
      | succ b => simp at hb
    have e : keep ky a ++ keep (.int j) b = [a] := by simp [keep, ky1, ki]
    rw [e, e2]
    show genAt T _ (rows.getD a 0) j = _
    rw [getD_of_get? ha]
    exact W y j
  · rw [if_pos (hlen ky1 kx1)]
    refine ⟨_, rfl, by simp [keep, ky1, kx1], fun a b y x ha hb => ?_⟩
    have e : keep ky a ++ keep kx b = [a, b] := by simp [keep, ky1, kx1]
    rw [e]
    show genAt T _ (rows.getD a 0) (cols.getD b 0) = _
    rw [getD_of_get? ha, getD_of_get? hb]
    exact W y x

/-- **C151 (values and coordinates, partial).** What `grid[ky, kx]` reads and what
`grid.coordinates()[ky, kx]` returns have the same rows and columns, and under every index the
coordinates are the centre of the very cell the value was read from. -/
theorem C151_values_partial {α : Type _} (T : Xform) {H W : Nat} {bands : List (CBand α)}
    {Ps : List (Int → Int → α)} (hB : Bands H W bands Ps) (hne : bands ≠ [])
    (ky kx : Key) (rows cols : List Int)
    (hy : Spec.positions H ky = some rows) (hx : Spec.positions W kx = some cols)
    (ky0 : NotNegative ky) (kx0 : NotNegative kx) (iy : ¬ Inverted H ky) (ix : ¬ Inverted W kx)
    (hlen : ky.isInt = false → kx.isInt = false → 1 < rows.length ∧ 1 < cols.length) :
    ∃ vals coords, Indexer.getitem bands ky kx none = .ok vals ∧
      coordinatesAt T H W none ky kx = .ok coords ∧
      vals.shape = coords.shape ++ [bands.length] ∧
      ∀ (a b k : Nat) (y x : Int) (P : Int → Int → α), rows[a]? = some y → cols[b]? = some x →
        Ps[k]? = some P →
        vals.get (keep ky a ++ keep kx b ++ [k]) = some (P y x) ∧
        coords.get (keep ky a ++ keep kx b) = centerCoord T y x := by
  obtain ⟨vals, h1, h2, h3⟩ := Band.Props.C05_sliced_read_partial hB hne ky kx none rows cols _ hy hx rfl iy ix
  obtain ⟨coords, g1, g2, g3⟩ := C151_cells_partial T H W none ky kx rows cols hy hx ky0 kx0 hlen
  refine ⟨vals, coords, h1, g1, ?_, fun a b k y x P ha hb hP => ⟨?_, g3 a b y x ha hb⟩⟩
  · rw [h2, g2]
    simp [keepB]
  · have hk : k < bands.length := by
      rw [hB.1]
      exact (List.getElem?_eq_some_iff.mp hP).1
    have := h3 a b k y x (k : Int) P ha hb (by simp [hk]) (by simpa using hP)
    simpa [keepB] using this

/-- **C151 (whole grid).** On a grid of more than one row and more than one column,
`grid.coordinates()[:, :]` is what `center_coords` returns. -/
theorem C151_all (T : Xform) (ny nx : Nat) (hy : 1 < ny) (hx : 1 < nx) :
    ∃ res, coordinatesAt T ny nx none (.slice .all) (.slice .all) = .ok res ∧
      res.shape = [ny, nx] ∧
      ∀ a b : Nat, a < ny → b < nx → res.get [a, b] = centerCoord T a b := by
  have hp : ∀ n : Nat, Spec.positions n (.slice .all) =
      some ((List.range n).map fun (k : Nat) => (k : Int)) := by
    intro n
    have e : Py.Slice.all.indices n = .ok (0, (n : Int), 1) := rfl
    simp only [Spec.positions, e, Py.range, Py.rangeLen]
    congr 1
    by_cases hn : (0 : Int) < n
    · have : ((if (1 : Int) > 0 then if (0 : Int) < n then (((n : Int) - 0 - 1) / 1 + 1).toNat else 0
        else if (1 : Int) < 0 then if (n : Int) < 0 then ((0 - (n : Int) - 1) / -1 + 1).toNat else 0
        else 0)) = n := by
        rw [if_pos (by decide), if_pos hn]; omega
      rw [this]
      simp
    · have : n = 0 := by omega
      subst this
      rfl
  obtain ⟨res, h1, h2, h3⟩ := C151_cells_partial T ny nx none (.slice .all) (.slice .all) _ _
    (hp ny) (hp nx) trivial trivial (fun _ _ => by simp [hy, hx])
  refine ⟨res, h1, by simpa [keep, Key.isInt] using h2, fun a b ha hb => ?_⟩
  have := h3 a b a b (by simp [ha]) (by simp [hb])
  simpa [keep, Key.isInt, wanted] using this

/-- **C151 (violated).** A negative integer addresses a row from the end when values are read, but
not when coordinates are asked for: on every grid whose rows are apart, the coordinates under
`[-1, 0]` are not those of the last row but those of a row before the first one. -/
theorem C151_violated_negative (T : Xform) (ny nx : Nat) (hny : 0 < ny) (hdy : T.dy ≠ 0) :
    Spec.positions ny (.int (-1)) = some [(ny : Int) - 1] ∧
    ∃ res, coordinatesAt T ny nx none (.int (-1)) (.int 0) = .ok res ∧
      res.get [] = centerCoord T (-1) 0 ∧ res.get [] ≠ centerCoord T ((ny : Int) - 1) 0 := by
  refine ⟨?_, _, rfl, wanted_eq T none (-1) 0, ?_⟩
  · simp only [Spec.positions]
    rw [if_neg (by omega), if_pos (by omega)]
    congr 2
  · show genAt T (chosen none) (-1) 0 ≠ _
    rw [wanted_eq T none (-1) 0]
    intro h
    have h2 := congrArg Prod.snd h
    simp only [wanted, centerCoord] at h2
    push_cast at h2
    have hn : (ny : ℚ) ≠ 0 := by exact_mod_cast hny.ne'
    have : (ny : ℚ) * T.dy = 0 := by linarith
    rcases mul_eq_zero.mp this with h | h
    · exact hn h
    · exact hdy h

/-- **C151 (violated).** A row that does not exist has coordinates nevertheless: no key is refused
for being out of range. -/
theorem C151_violated_beyond (T : Xform) (ny nx : Nat) (i j : Int) :
    ∃ res, coordinatesAt T ny nx none (.int i) (.int j) = .ok res ∧
      res.get [] = centerCoord T i j :=
  ⟨_, rfl, wanted_eq T none i j⟩

/-- **C151 (violated).** A slice of a single row loses its axis: `grid[0:1, :]` has two axes for rows
and columns on every grid of at least one row, `grid.coordinates()[0:1, :]` only one. -/
theorem C151_violated_single_row (T : Xform) (ny nx : Nat) (hny : 0 < ny) :
    Spec.positions ny (.slice ⟨some 0, some 1, none⟩) = some [0] ∧
    ∃ res, coordinatesAt T ny nx none (.slice ⟨some 0, some 1, none⟩) (.slice .all) = .ok res ∧
      res.shape.length = 1 := by
  have hi : (⟨some 0, some 1, none⟩ : Py.Slice).indices ny = .ok (0, 1, 1) := by
    unfold Py.Slice.indices Py.adjust
    simp
    omega
  have hr : Py.range 0 1 1 = [0] := by decide
  refine ⟨by simp only [Spec.positions, hi, hr], ?_⟩
  unfold coordinatesAt coordGenGet
  simp only [expandKey, hi, hr]
  have e : Py.Slice.all.indices nx = .ok (0, (nx : Int), 1) := rfl
  simp only [e]
  rw [if_neg (by simp)]
  by_cases h1 : [(0 : Int)].length = (Py.range 0 (nx : Int) 1).length
  · rw [if_pos h1]
    exact ⟨_, rfl, rfl⟩
  · rw [if_neg h1, if_pos (show [(0 : Int)].length = 1 from rfl)]
    exact ⟨_, rfl, rfl⟩

/-- **C151 (violated).** An empty selection of rows is an error instead of an empty array. -/
theorem C151_violated_empty (T : Xform) (ny nx : Nat) (hnx : 1 < nx) :
    Spec.positions ny (.slice ⟨some 0, some 0, none⟩) = some [] ∧
    coordinatesAt T ny nx none (.slice ⟨some 0, some 0, none⟩) (.slice .all) = .error .valueError := by
  have hi : (⟨some 0, some 0, none⟩ : Py.Slice).indices ny = .ok (0, 0, 1) := by
    unfold Py.Slice.indices Py.adjust
    simp
  have hr : Py.range 0 0 1 = [] := by decide
  refine ⟨by simp only [Spec.positions, hi, hr], ?_⟩
  unfold coordinatesAt coordGenGet
  simp only [expandKey, hi, hr]
  have e : Py.Slice.all.indices nx = .ok (0, (nx : Int), 1) := rfl
  simp only [e]
  have hl : (Py.range 0 (nx : Int) 1).length = nx := by
    simp only [Py.range, Py.rangeLen, List.length_map, List.length_range]
    rw [if_pos (by decide), if_pos (by omega)]
    omega
  rw [if_neg (by simp), if_neg (by simp [hl]; omega), if_neg (by simp), if_neg (by rw [hl]; omega)]

example : coordinatesAt ⟨10, 20, 2, -3, 1, 1 / 2⟩ 5 4 none (.int 3) (.int 2) =
    .ok ⟨[], fun _ => genAt ⟨10, 20, 2, -3, 1, 1 / 2⟩ (chosen none) 3 2⟩ ∧
    centerCoord ⟨10, 20, 2, -3, 1, 1 / 2⟩ 3 2 = (37 / 2, 43 / 4) := by
  refine ⟨rfl, by decide +kernel⟩

/-- Rows 4, 2, 0 and columns 1, 2 of a grid of five rows and four columns, in degrees of which the
conversion makes minutes. -/
example : ∃ res, coordinatesAt ⟨10, 20, 2, -3, 1, 1 / 2⟩ 5 4
      (some (false, fun x y => (60 * x, 60 * y)))
      (.slice ⟨none, none, some (-2)⟩) (.slice ⟨some 1, some (-1), none⟩) = .ok res ∧
    res.shape = [3, 2] ∧
    res.get [1, 0] = (60 * (centerCoord ⟨10, 20, 2, -3, 1, 1 / 2⟩ 2 1).1,
      60 * (centerCoord ⟨10, 20, 2, -3, 1, 1 / 2⟩ 2 1).2) := by
  obtain ⟨res, h1, h2, h3⟩ := C151_cells_partial ⟨10, 20, 2, -3, 1, 1 / 2⟩ 5 4
    (some (false, fun x y => (60 * x, 60 * y)))
    (.slice ⟨none, none, some (-2)⟩) (.slice ⟨some 1, some (-1), none⟩) [4, 2, 0] [1, 2]
    (by decide) (by decide) trivial trivial (by decide)
  exact ⟨res, h1, h2, h3 1 0 2 1 rfl rfl⟩

/-- Values and coordinates of the last two columns of a fresh grid. -/
example : ∃ vals coords, Indexer.getitem [CBand.new 5 4 2 2 (7 : Int)] (.int 3)
      (.slice ⟨some 2, none, none⟩) none = .ok vals ∧
    coordinatesAt ⟨10, 20, 2, -3, 1, 1 / 2⟩ 5 4 none (.int 3) (.slice ⟨some 2, none, none⟩) =
      .ok coords ∧
    vals.get [1, 0] = some 7 ∧ coords.get [1] = centerCoord ⟨10, 20, 2, -3, 1, 1 / 2⟩ 3 3 := by
  obtain ⟨vals, coords, h1, h2, _, h4⟩ := C151_values_partial ⟨10, 20, 2, -3, 1, 1 / 2⟩
    (H := 5) (W := 4) (bands := [CBand.new 5 4 2 2 (7 : Int)]) (Ps := [fun _ _ => 7])
    ⟨rfl, fun k b P hb hP => by
      cases k with
      | zero =>
        simp only [List.getElem?_cons_zero, Option.some.injEq] at hb hP
        subst hb hP
        exact .new 2 2 (by decide) (by decide) 7
      | succ k => simp at hb⟩ (by simp)
    (.int 3) (.slice ⟨some 2, none, none⟩) [3] [2, 3] (by decide) (by decide) (show (0 : Int) ≤ 3 by decide) trivial
    (by simp [Inverted]) (by simp [Inverted, Py.Slice.indices, Py.adjust]) (by decide)
  have := h4 0 1 0 3 3 (fun _ _ => 7) rfl rfl rfl
  exact ⟨vals, coords, h1, h2, this.1, this.2⟩

end Karta.Grid
