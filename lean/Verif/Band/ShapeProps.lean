import Verif.Band.IndexerProps

/-!
The shape that `grid.values` reports (karta/raster/band.py 209-218), against its description,
the items it yields and the array it returns for all rows and columns.
-/

namespace Karta.Band.Props
open Karta Karta.Band Karta.Band.Spec Karta.Band.Indexer

variable {α : Type _}

/-- `BandIndexer.shape` (band.py 209-218). -/
def valuesShape (bands : List (CBand α)) : Except Err (List Nat) :=
  match bands with
  | [] => .error .valueError
  | b :: _ => .ok [b.ny, b.nx]

/-- Specification, after the description in the code: `(m, n)` for a single band of `m` rows and
`n` columns, `(N, m, n)` for `N > 1` bands. -/
def describedShape (N m n : Nat) : List Nat := if 1 < N then [N, m, n] else [m, n]

theorem valuesShape_eq {H W : Nat} {bands : List (CBand α)} {Ps : List (Int → Int → α)}
    (hB : Bands H W bands Ps) (hne : bands ≠ []) : valuesShape bands = .ok [H, W] := by
  obtain ⟨hl, hr⟩ := hB
  match bands, Ps with
  | [], _ => exact absurd rfl hne
  | b :: bs, [] => simp at hl
  | b :: bs, P :: Ps =>
    have h := hr 0 b P rfl rfl
    have hs : b.ny = H ∧ b.nx = W := ⟨h.sound.2.1, h.sound.2.2.1⟩
    simp only [valuesShape, hs.1, hs.2]

/-- **C186 (partial).** The shape of a grid of one band is `(m, n)`, as described.  Missing: grids
of several bands, for which it is false (`C186_violated_several_bands`). -/
theorem C186_one_band_partial {H W : Nat} {b : CBand α} {P : Int → Int → α}
    (hB : Bands H W [b] [P]) : valuesShape [b] = .ok (describedShape 1 H W) :=
  valuesShape_eq hB (by simp)

/-- **C186 (violated).** For every grid of two or more bands the shape is not the one described. -/
theorem C186_violated_several_bands {H W : Nat} {bands : List (CBand α)}
    {Ps : List (Int → Int → α)} (hB : Bands H W bands Ps) (h2 : 1 < bands.length) :
    valuesShape bands ≠ .ok (describedShape bands.length H W) := by
  have hne : bands ≠ [] := by rintro rfl; simp at h2
  rw [valuesShape_eq hB hne, describedShape, if_pos h2]
  simp

/-- **C186.** However many bands there are, the first number of the shape is the number of items
that iteration yields, and the second is the number of columns of every item. -/
theorem C186_iteration_agrees {H W : Nat} {bands : List (CBand α)} {Ps : List (Int → Int → α)}
    (hB : Bands H W bands Ps) (hne : bands ≠ []) :
    ∃ m n items, valuesShape bands = .ok [m, n] ∧ iter bands = .ok items ∧
      items.length = m ∧ ∀ A ∈ items, A.nx = n := by
  obtain ⟨items, h1, h2, h3⟩ := C08_iteration_yields_rows hB hne
  refine ⟨H, W, items, valuesShape_eq hB hne, h1, h2, ?_⟩
  intro A hA
  obtain ⟨i, hi⟩ := List.mem_iff_getElem?.1 hA
  exact (h3 i A hi).2.1

/-- **C186.** The array `grid[:,:]` has the two dimensions of the shape and, after them, one of
the number of bands, also for a single band. -/
theorem C186_array_of_all {H W : Nat} {bands : List (CBand α)} {Ps : List (Int → Int → α)}
    (hB : Bands H W bands Ps) (hne : bands ≠ []) :
    ∃ m n res, valuesShape bands = .ok [m, n] ∧
      getitem bands (.slice .all) (.slice .all) none = .ok res ∧
      res.shape = [m, n, bands.length] := by
  obtain ⟨res, h1, h2, -⟩ := C05_sliced_read_partial hB hne (.slice .all) (.slice .all) none _ _
    ((List.range bands.length).map fun (k : Nat) => (k : Int))
    (positions_all H) (positions_all W) rfl (not_inverted_all H) (not_inverted_all W)
  refine ⟨H, W, res, valuesShape_eq hB hne, h1, ?_⟩
  simpa [keep, keepB, Key.isInt] using h2

/-- **C186.** A grid without bands has no shape. -/
theorem C186_no_bands : valuesShape ([] : List (CBand α)) = .error .valueError := rfl

example : valuesShape exBands = .ok [5, 7] ∧ describedShape exBands.length 5 7 = [2, 5, 7] := by
  decide
example := C186_violated_several_bands exBands_ok (by decide)
example := C186_iteration_agrees exBands_ok (by simp [exBands])
example := C186_array_of_all exBands_ok (by simp [exBands])
example : Bands 5 7 [CBand.new 5 7 2 3 (0 : Int)] [fun _ _ => 0] := by
  refine ⟨rfl, ?_⟩
  intro k b P h1 h2
  match k with
  | 0 =>
    simp only [List.getElem?_cons_zero, Option.some.injEq] at h1 h2
    subst h1 h2
    exact .new 2 3 (by decide) (by decide) 0
  | k + 1 => simp at h1

end Karta.Band.Props
