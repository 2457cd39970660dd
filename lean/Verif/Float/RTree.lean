import Verif.Float.Single

/-!
Property C146: the spatial index of Multiline and Multipolygon, whose boxes are kept in single precision.

As long as all geometries fit in one node (50 unless given), the index only copies and compares boxes, and the area of an overlap,
which is a product of two differences in single precision, is positive exactly if both differences are: rounding keeps the sign.
Not modelled: trees of several nodes, where the expansions of boxes, computed in single precision, decide about the shape of the tree
(`Verif.Vec.RTree` models them without rounding).
-/

namespace Karta.Float.RT
open Karta Karta.RTree Karta.Float

/-- Assigning four doubles to the members of a `Bbox` (rtree.pyx 56-59, 82-85, 99-102; rtree.h 12-17). -/
def roundBox (S : Single) (b : RBox) : RBox := ⟨S.fl b.xmin, S.fl b.ymin, S.fl b.xmax, S.fl b.ymax⟩

/-- `RTree.__init__` (rtree.pyx 43-65), given the bounding boxes of the geometries in double precision. -/
def buildS (S : Single) (M : Nat) (boxes : List RBox) : Except Err (Heap × Nat) := build M (boxes.map (roundBox S))

/-- `RTree.search_within(bbox, max_results)` (rtree.pyx 76-91), called by `within_bbox` (geometry.py 1469-1482). -/
def searchWithinS (S : Single) (fuel : Nat) (t : Heap × Nat) (q : RBox) (max : Int) : Option (List Nat) :=
  searchWithin fuel t (roundBox S q) max

/-- `RTree.search_overlapping(bbox, max_results)` (rtree.pyx 93-108), called by `touching_bbox` (geometry.py 1484-1494), and for the
candidates of `touching` and `within` (1496-1540). -/
def searchOverlappingS (S : Single) (fuel : Nat) (t : Heap × Nat) (q : RBox) (max : Int) : Option (List Nat) :=
  searchOverlapping fuel t (roundBox S q) max

/-! ### Helpers -/

theorem round_units {S : Single} {k : ℤ} {b : RBox}
    (h : InUnits k (2 ^ 24) b.xmin ∧ InUnits k (2 ^ 24) b.ymin ∧ InUnits k (2 ^ 24) b.xmax ∧ InUnits k (2 ^ 24) b.ymax) :
    roundBox S b = b := by
  have one : ∀ x : ℚ, InUnits k (2 ^ 24) x → S.fl x = x := by
    rintro x ⟨n, hn, rfl⟩
    exact S.exact n k hn
  unfold roundBox
  rw [one _ h.1, one _ h.2.1, one _ h.2.2.1, one _ h.2.2.2]

theorem lt_of_fl {S : Single} {x y : ℚ} (h : S.fl x < S.fl y) : x < y := by
  by_contra hc
  exact absurd (S.mono (not_lt.1 hc)) (not_le.2 h)

theorem meet_of_round {S : Single} {q b : RBox} (h : Meet (roundBox S q) (roundBox S b)) : Meet q b := by
  obtain ⟨x, y, ⟨h1, h2, h3, h4⟩, h5, h6, h7, h8⟩ := h
  simp only [roundBox] at h1 h2 h3 h4 h5 h6 h7 h8
  have a1 := lt_of_fl (h1.trans h2)
  have a2 := lt_of_fl (h1.trans h6)
  have a3 := lt_of_fl (h5.trans h2)
  have a4 := lt_of_fl (h5.trans h6)
  have c1 := lt_of_fl (h3.trans h4)
  have c2 := lt_of_fl (h3.trans h8)
  have c3 := lt_of_fl (h7.trans h4)
  have c4 := lt_of_fl (h7.trans h8)
  have e1 : max q.xmin b.xmin < min q.xmax b.xmax := max_lt (lt_min a1 a2) (lt_min a3 a4)
  have e2 : max q.ymin b.ymin < min q.ymax b.ymax := max_lt (lt_min c1 c2) (lt_min c3 c4)
  have l1 := le_max_left q.xmin b.xmin
  have l2 := le_max_right q.xmin b.xmin
  have l3 := min_le_left q.xmax b.xmax
  have l4 := min_le_right q.xmax b.xmax
  have m1 := le_max_left q.ymin b.ymin
  have m2 := le_max_right q.ymin b.ymin
  have m3 := min_le_left q.ymax b.ymax
  have m4 := min_le_right q.ymax b.ymax
  refine ⟨(max q.xmin b.xmin + min q.xmax b.xmax) / 2, (max q.ymin b.ymin + min q.ymax b.ymax) / 2, ?_, ?_, ?_, ?_, ?_⟩
  · exact ⟨by linarith, by linarith, by linarith, by linarith⟩
  all_goals linarith

theorem getElem?_round {S : Single} {boxes : List RBox} {i : Nat} {b : RBox} (h : (boxes.map (roundBox S))[i]? = some b) :
    ∃ c, boxes[i]? = some c ∧ b = roundBox S c := by
  rw [List.getElem?_map] at h
  cases e : boxes[i]? with
  | none => rw [e] at h; cases h
  | some c => rw [e] at h; exact ⟨c, rfl, (Option.some.inj h).symm⟩

/-! ### C146 -/

/-- C146, overlap: every geometry found by an overlap search has a bounding box that shares an area with the query, although boxes and
query are rounded to single precision.  Every geometry whose box overlaps the query by a part that survives the rounding is found.

Missing for the full claim: geometries whose boxes, or whose overlaps, are smaller than the spacing of single precision (below). -/
theorem C146_overlap_partial (S : Single) {M : Nat} (hM : 4 ≤ M) {boxes : List RBox} (hn : boxes.length ≤ M) :
    ∃ t, buildS S M boxes = .ok t ∧ ∀ (q : RBox) (mx : Int), mx ≠ 0 →
      ∃ r : List Nat, Returns (fun n => searchOverlappingS S n t q mx) r ∧ r.Nodup ∧
        (∀ i ∈ r, ∃ b, boxes[i]? = some b ∧ Meet q b) ∧
        ∀ i b, boxes[i]? = some b → S.fl (max q.xmin b.xmin) < S.fl (min q.xmax b.xmax) →
          S.fl (max q.ymin b.ymin) < S.fl (min q.ymax b.ymax) → i ∈ r := by
  obtain ⟨t, ht, hs⟩ := C26_small_partial hM (boxes := boxes.map (roundBox S)) (by rw [List.length_map]; exact hn)
  refine ⟨t, ht, fun q mx hm => ?_⟩
  obtain ⟨r, hr, hnd, hmem⟩ := hs (roundBox S q) mx hm
  refine ⟨r, hr, hnd, fun i hi => ?_, fun i b hb h1 h2 => ?_⟩
  · obtain ⟨b, hb, hmeet⟩ := (hmem i).1 hi
    obtain ⟨c, hc, rfl⟩ := getElem?_round hb
    exact ⟨c, hc, meet_of_round hmeet⟩
  · rw [hmem]
    refine ⟨roundBox S b, by rw [List.getElem?_map, hb]; rfl, ?_⟩
    have e1 := S.mono (le_max_left q.xmin b.xmin)
    have e2 := S.mono (le_max_right q.xmin b.xmin)
    have e3 := S.mono (min_le_left q.xmax b.xmax)
    have e4 := S.mono (min_le_right q.xmax b.xmax)
    have f1 := S.mono (le_max_left q.ymin b.ymin)
    have f2 := S.mono (le_max_right q.ymin b.ymin)
    have f3 := S.mono (min_le_left q.ymax b.ymax)
    have f4 := S.mono (min_le_right q.ymax b.ymax)
    refine ⟨(S.fl (max q.xmin b.xmin) + S.fl (min q.xmax b.xmax)) / 2, (S.fl (max q.ymin b.ymin) + S.fl (min q.ymax b.ymax)) / 2,
      ?_, ?_, ?_, ?_, ?_⟩
    · simp only [roundBox]
      exact ⟨by linarith, by linarith, by linarith, by linarith⟩
    all_goals simp only [roundBox]; linarith

example := C146_overlap_partial single (M := 50) (by omega) (boxes := [⟨5, 5, 6, 6⟩, ⟨1 / 10, 1 / 10, 3, 3⟩]) (by decide)

/-- C146, whole units: if the bounds of all boxes and of the query are whole multiples of a power of two, at most `2 ^ 24` times (about
sixteen million), both searches are exact: the boxes that share an area with the query, and those inside it that do not begin at
its lower bounds. -/
theorem C146_units_partial (S : Single) {k : ℤ} {M : Nat} (hM : 4 ≤ M) {boxes : List RBox} (hn : boxes.length ≤ M)
    (hu : ∀ b ∈ boxes, InUnits k (2 ^ 24) b.xmin ∧ InUnits k (2 ^ 24) b.ymin ∧ InUnits k (2 ^ 24) b.xmax ∧ InUnits k (2 ^ 24) b.ymax) :
    ∃ t, buildS S M boxes = .ok t ∧ ∀ (q : RBox) (mx : Int), mx ≠ 0 →
      (InUnits k (2 ^ 24) q.xmin ∧ InUnits k (2 ^ 24) q.ymin ∧ InUnits k (2 ^ 24) q.xmax ∧ InUnits k (2 ^ 24) q.ymax) →
      (∃ r : List Nat, Returns (fun n => searchOverlappingS S n t q mx) r ∧ r.Nodup ∧
        ∀ i, i ∈ r ↔ ∃ b, boxes[i]? = some b ∧ Meet q b) ∧
      ∃ r : List Nat, Returns (fun n => searchWithinS S n t q mx) r ∧ r.Nodup ∧
        ∀ i, i ∈ r ↔ ∃ b, boxes[i]? = some b ∧ Inside q b ∧ q.xmin ≠ b.xmin ∧ q.ymin ≠ b.ymin := by
  have e : boxes.map (roundBox S) = boxes := by
    conv_rhs => rw [← List.map_id boxes]
    exact List.map_congr_left fun b hb => round_units (hu b hb)
  obtain ⟨t, ht, h1⟩ := C26_small_partial hM hn
  obtain ⟨t', ht', h2⟩ := C27_small_partial hM hn
  rw [ht] at ht'
  cases ht'
  refine ⟨t, by unfold buildS; rw [e]; exact ht, fun q mx hm hq => ?_⟩
  unfold searchOverlappingS searchWithinS
  rw [round_units hq]
  exact ⟨h1 q mx hm, h2 q mx hm⟩

/-- UTM coordinates in quarters of a metre. -/
example := C146_units_partial single (k := -2) (M := 50) (by omega) (boxes := [⟨500000, 4100000, 500100, 4100050 + 1 / 4⟩]) (by decide) (by
  intro b hb
  rw [List.mem_singleton.1 hb]
  exact ⟨⟨2000000, by norm_num, by norm_num⟩, ⟨16400000, by norm_num, by norm_num⟩, ⟨2000400, by norm_num, by norm_num⟩,
    ⟨16400201, by norm_num, by norm_num⟩⟩)

/-- C146 is violated: a polygon ten centimetres high at the UTM northing 4100000 is found by no search for overlaps, not even with its own
bounding box, because both bounds are rounded to the same number. -/
theorem C146_violated_missed : ∃ t, buildS single 50 [⟨500000, 4100000, 500100, 4100000 + 1 / 10⟩] = .ok t ∧
    Meet ⟨500000, 4100000, 500100, 4100000 + 1 / 10⟩ ⟨500000, 4100000, 500100, 4100000 + 1 / 10⟩ ∧
    ∀ (q : RBox) (mx : Int), mx ≠ 0 → Returns (fun n => searchOverlappingS single n t q mx) [] := by
  obtain ⟨t, ht, hs⟩ := C26_small_partial (M := 50) (by omega)
    (boxes := [(⟨500000, 4100000, 500100, 4100000 + 1 / 10⟩ : RBox)].map (roundBox single)) (by simp)
  refine ⟨t, ht, ⟨500050, 4100000 + 1 / 20, by norm_num, by norm_num⟩, fun q mx hm => ?_⟩
  obtain ⟨r, hr, _, hmem⟩ := hs (roundBox single q) mx hm
  have : r = [] := by
    rw [List.eq_nil_iff_forall_not_mem]
    intro i hi
    obtain ⟨b, hb, hmeet⟩ := (hmem i).1 hi
    have hbm := List.mem_of_getElem? hb
    rw [List.map_singleton, List.mem_singleton] at hbm
    obtain ⟨x, y, _, _, _, h3, h4⟩ := hmeet
    have e : single.fl 4100000 = 4100000 ∧ single.fl (4100000 + 1 / 10) = 4100000 := by decide +kernel
    rw [hbm] at h3 h4
    simp only [roundBox, e.1, e.2] at h3 h4
    linarith
  rw [this] at hr
  exact hr

/-- C146 is violated: a geometry that reaches ten centimetres beyond the query is reported as lying within it. -/
theorem C146_violated_within : ∃ t, buildS single 50 [⟨500000, 4100001, 500100, 4100050 + 1 / 10⟩] = .ok t ∧
    ¬ Inside ⟨499999, 4100000, 500101, 4100050⟩ ⟨500000, 4100001, 500100, 4100050 + 1 / 10⟩ ∧
    Returns (fun n => searchWithinS single n t ⟨499999, 4100000, 500101, 4100050⟩ (-1)) [0] := by
  refine ⟨_, build_small (by omega) (by simp), ?_, 1, fun k => ?_⟩
  · rintro ⟨_, _, _, h⟩
    norm_num at h
  · refine (search_small (by omega) k).trans ?_
    decide +kernel

/-- C146 is violated: the bounding box of the index does not contain the geometries.  A box that begins at `0.1` lies outside the box of
the index, which begins at the single-precision number next to it. -/
theorem C146_violated_bbox : ∃ t, buildS single 50 [⟨1 / 10, 0, 1, 1⟩] = .ok t ∧ ¬ Inside (treeBox t) ⟨1 / 10, 0, 1, 1⟩ ∧
    ¬ Inside (treeBox t) ⟨rnd (1 / 10), 0, 1, 1⟩ := by
  refine ⟨_, build_small (by omega) (by simp), ?_, ?_⟩ <;>
  · rintro ⟨h, _⟩
    revert h
    decide +kernel

end Karta.Float.RT
