# karta: formal model in Lean 4 — design

Source: `/repo` (fortyninemaps/karta, Python + Cython + C headers), read as text only.
Model: `/verif/lean/Verif`, Lean 4.33.0 + Mathlib (one module at a time).

## 1. Layout

For every area `X` of the code:

* `Verif/X/Model.lean`  – definitions that follow the Python/C functions branch by branch.
  Each carries a comment with file and lines, and names its simplifications.
* `Verif/X/Spec.lean`   – small independent vocabulary used to state the properties
  (no reference to the model's helpers).
* `Verif/X/Lemmas.lean` – proofs about the model (helpers).
* `Verif/X/Props.lean`  – property theorems (`C05_…`), each with non-vacuity examples and,
  where the code violates the English property, a counterexample theorem
  (`C04_violated_…`) beside the strongest true statement (`C04_…_partial`).

## 2. Modelling conventions (apply everywhere)

* `float` values are exact rationals `ℚ` (or reals `ℝ` where a square root or a
  trigonometric function is needed). Rounding is modelled only under `Verif/Float` (C141 and later);
  overflow and signed zero are not modelled.
  NaN is modelled explicitly (`Option`) where the code branches on it.
* Python `int` is `Int` (`Nat` where the code guarantees non-negativity).
  `//` and `%` are floor division / modulo (`Int.fdiv`/`Int.fmod`, or `/`,`%` for positive divisors).
* Exceptions are values (`Except Err α`), one constructor per Python exception class.
* numpy arrays are a shape plus an index function; slice assignment checks shapes and
  broadcasts length-1 axes as numpy does. `np.empty` cells are `none` ("uninitialised"),
  so a theorem about a result also says every cell was written.
* C loops and recursions whose termination is not obvious carry a fuel argument;
  termination theorems state that enough fuel exists.
* blosc compress/decompress is a lossless identity; dtype casts are the identity.
* GDAL, OGR, pyproj, coordstring, numpy, json, heapq are outside the model; where the
  code calls them the model uses the documented behaviour and says so.

## 3. Plan per property

| id | what is modelled | how it is proved |
|----|------------------|------------------|
| C01–C03 | `CompressedBand.__init__/_getchunks/setblock/getblock/_store/_retrieve`, `SimpleBand` | refinement: abstraction function band → pixel map; per-chunk step lemma, induction over chunk list, induction over history |
| C04 | same, with out-of-range offsets and Python negative slice bounds | counterexample + partial (in-range rows/columns) |
| C05–C08 | `BandIndexer.__getitem__/__setitem__/masks/__iter__`, `slice.indices`, `range` | arithmetic on slice.indices; frame lemma from C01 |
| C09, C10 | `get_positions_vec`, `center_coords`, `CoordinateGenerator`, `_indices`, `indices` | `field_simp`/`ring`; rounding lemmas for half-even |
| C11 | `aschunks` loop | fuel loop, coverage by division algorithm |
| C12, C13 | `clip`, `resize` index arithmetic | arithmetic; counterexample where indices go negative |
| C14, C15 | `merge`, `gridpoints`, `fillarray_double` | induction over inputs |
| C16, C17 | `sample_bilinear_*`, `sample_nearest` | algebra + convexity; layout counterexample for several bands |
| C18, C19 | `set_nodata_value`, `data_mask(_full)`, `extent` | pointwise; sign-case analysis, counterexample for opposite-sign skew |
| C20 | `mask_poly` | mask = sum of edge contributions, permutation invariance |
| C21 | `to_aai` / `aairead` / `read_aai` line-level | counterexample + partial |
| C22, C23 | geotransform write/read, `GdalFileBand.getblock` | algebra; counterexample for skew |
| C24, C25 | `quadtree.h`, `quadtree.pyx` | structural invariant; soundness/completeness by induction; termination by halving vs. minimal separation |
| C26, C27 | `rtree.h` | counterexamples for completeness; soundness by induction on tree; completeness under explicit tree invariant |
| C28–C31 | `table.py`, `_subset` | list lemmas; set iteration order is a parameter (any permutation) |
| C32, C33 | `vectorgeo.bbox`, `bboxes_overlap`, `_bbox_overlap` | list induction; order reasoning |
| C34–C37 | `intersection.pyx` | linear algebra; counterexamples for endpoints/sweep |
| C38, C39 | `contains.pyx`, `Polygon.contains/area` | edge-sum invariance; convexity argument |
| C40–C43 | `Polygon.area/isclockwise/centroid`, `apply_transform`, `shift`, `rotate` | cyclic-sum algebra |
| C44, C45 | `pt_nearest_planar`, `_nearest_to_point`, `within_distance` | projection optimality; fold minimum |
| C46 | `convexhull` | counterexamples; subset property |
| C47 | `cache_decorator` | invariant over call histories; stale-cache counterexample |
| C48–C50 | `reduce_deg`, `unroll_deg`, `_canonical_configuration`, `crosses_dateline` | floor arithmetic, case analysis |
| C51 | `tile.py` | real analysis (Gudermannian), floor arithmetic |
| C52 | `fzero_brent` | loop invariant |
| C53 | `raster/misc.py` stencils | ring |
| C54–C56 | `_shp.py`, `read.py`, `merge_properties` | list induction |
