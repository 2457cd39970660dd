import Verif.Vec.QuadTreeLemmas
import Mathlib.Data.List.Flatten

/-!
Properties C24, C25 (quadtree) and C60 (spatial queries of a Multipoint).
-/

namespace Karta.Vec.QT

/-! ## C24 -/

/-- C24.  Whenever construction finishes, searching any box returns exactly the indices of the
points strictly inside it, each exactly once (points with repeated coordinates included). -/
theorem C24_search_exact (cap : Nat) (hcap : 1 ≤ cap) (fuel : Nat) (pts : List Pt) (s : State)
    (hs : build cap fuel pts = some s) (q : Box) :
    (search s q).Nodup ∧ ∀ i, i ∈ search s q ↔ ∃ p, pts[i]? = some p ∧ q.Inside p := by
  have hI : StateInv cap _ pts pts.length s :=
    buildLoop_inv hcap pts (root_contains pts) pts 0 rfl _ (init_inv hcap _ pts) s hs
  have hloop : searchLoop q [s.root]
      = (s.root.pts.filter fun p => iswithin q p.pt).map Pos.id := by
    rw [searchLoop_eq (cap := cap) q [s.root] (by simpa using ⟨_, hI.inv⟩)]
    simp
  have hperm : (search s q).Perm
      ((s.root.pts.filter fun p => iswithin q p.pt).flatMap (group s.dups)) := by
    unfold search
    rw [hloop]
    refine ((List.reverse_perm _).flatMap_right _).trans ?_
    rw [List.flatMap_map]
    exact List.Perm.refl _
  have hsub : ((s.root.pts.filter fun p => iswithin q p.pt).flatMap (group s.dups)).Sublist
      (s.root.pts.flatMap (group s.dups)) := List.filter_sublist.flatMap _
  have hnod : (s.root.pts.flatMap (group s.dups)).Nodup := hI.perm.symm.nodup List.nodup_range
  refine ⟨hperm.symm.nodup (hnod.sublist hsub), fun i => ?_⟩
  rw [hperm.mem_iff, List.mem_flatMap]
  constructor
  · rintro ⟨p, hp, hi⟩
    obtain ⟨hp1, hp2⟩ := List.mem_filter.1 hp
    refine ⟨p.pt, hI.ids p hp1 i hi, ?_⟩
    simpa [iswithin, Box.Inside] using hp2
  · rintro ⟨x, hx, hin⟩
    have hlt : i < pts.length := by
      by_contra hh
      rw [List.getElem?_eq_none (by omega)] at hx; cases hx
    have hmem : i ∈ s.root.pts.flatMap (group s.dups) := hI.perm.mem_iff.2 (by simpa using hlt)
    obtain ⟨p, hp, hi⟩ := List.mem_flatMap.1 hmem
    refine ⟨p, List.mem_filter.2 ⟨hp, ?_⟩, hi⟩
    have := hI.ids p hp i hi
    rw [this] at hx
    rw [Option.some.inj hx]
    simpa [iswithin, Box.Inside] using hin

/-- Five points, two of them equal, that force a split at capacity 3. -/
def exPts : List Pt := [⟨0, 0⟩, ⟨1, 1⟩, ⟨1 / 4, 1 / 4⟩, ⟨0, 0⟩, ⟨3 / 4, 0⟩]

example : (build 3 5 exPts).map (fun s => search s ⟨-1, -1, 1 / 2, 1 / 2⟩)
    = some [2, 3, 0] := by
  decide +kernel

/-! ## C25 -/

/-- C25.  With leaf capacity at least two, construction finishes on every list of points: from
some amount of fuel on, the model returns one and the same tree. -/
theorem C25_build_terminates (cap : Nat) (hcap : 2 ≤ cap) (pts : List Pt) :
    ∃ s n, ∀ fuel, n ≤ fuel → build cap fuel pts = some s := by
  obtain ⟨n, s, e⟩ := exists_buildLoop hcap pts (root_contains pts) pts 0 rfl _
    (init_inv (by omega) _ pts)
  exact ⟨s, n, fun fuel hf => buildLoop_mono_le cap hf _ _ _ _ e⟩

theorem split_one_diverges (fuel : Nat) (bb : Box) (p : Pos) : split 1 fuel bb [p] = none := by
  induction fuel generalizing bb with
  | zero => rfl
  | succ fuel ih =>
    have hpart : ∀ q, quadrant bb p.pt = q → ([p].filter fun r => quadrant bb r.pt = q) = [p] := by
      intro q h; simp [h]
    have hnot : ∀ q, quadrant bb p.pt ≠ q → ([p].filter fun r => quadrant bb r.pt = q) = [] := by
      intro q h; simp [h]
    rw [split]
    simp only []
    generalize hq : quadrant bb p.pt = q0 at hpart hnot
    cases q0 <;> simp [hpart, hnot, ih]

/-- C25, the excluded capacity: with leaf capacity one the construction recurses for ever on
every non-empty list. -/
theorem C25_capacity_one_diverges (p : Pt) (ps : List Pt) (fuel : Nat) :
    build 1 fuel (p :: ps) = none := by
  simp [build, buildLoop, insert, duplicate, split_one_diverges]

example := C25_build_terminates 2 (by omega) exPts

/-- C24 and C25 together: for every list of points and capacity at least two there is a tree,
and searching it is exact. -/
theorem C24_search_total (cap : Nat) (hcap : 2 ≤ cap) (pts : List Pt) :
    ∃ s n, (∀ fuel, n ≤ fuel → build cap fuel pts = some s) ∧
      ∀ q, (search s q).Nodup ∧ ∀ i, i ∈ search s q ↔ ∃ p, pts[i]? = some p ∧ q.Inside p := by
  obtain ⟨s, n, h⟩ := C25_build_terminates cap hcap pts
  exact ⟨s, n, h, fun q => C24_search_exact cap (by omega) n pts s (h n le_rfl) q⟩

/-! ## C60 -/

theorem sortInts_eq {l m : List Nat} (hp : l.Perm m) (hm : m.Pairwise (· ≤ ·)) :
    sortInts l = m := by
  refine ((List.perm_insertionSort (· ≤ ·) l).trans hp).eq_of_pairwise (le := fun a b => a ≤ b)
    ?_ (List.pairwise_insertionSort (· ≤ ·) l) hm
  intro a b _ _ h1 h2; omega

theorem nodup_perm_filter {l : List Nat} {n : Nat} (f : Nat → Bool) (hn : l.Nodup)
    (h : ∀ i, i ∈ l ↔ i < n ∧ f i = true) : sortInts l = (List.range n).filter f := by
  apply sortInts_eq
  · rw [List.perm_ext_iff_of_nodup hn (List.nodup_range.filter _)]
    intro i
    rw [h]; simp
  · exact (List.pairwise_lt_range.imp (fun h => le_of_lt h)).filter _

/-- C60, boxes.  With its spatial index, `within_bbox` selects the same points in the same order
as the plain scan: those strictly inside the box, by increasing index. -/
theorem C60_within_bbox_agrees (cap : Nat) (hcap : 1 ≤ cap) (fuel : Nat) (pts : List Pt)
    (s : State) (hs : build cap fuel pts = some s) (q : Box) :
    withinBboxIndexed s q = withinBboxPlain pts q ∧
    ∀ i, i ∈ withinBboxPlain pts q ↔ ∃ p, pts[i]? = some p ∧ q.Inside p := by
  obtain ⟨hn, hm⟩ := C24_search_exact cap hcap fuel pts s hs q
  have hmem : ∀ i, (i < pts.length ∧ testAt pts i (fun p =>
      decide (q.xmin < p.x ∧ p.x < q.xmax ∧ q.ymin < p.y ∧ p.y < q.ymax)) = true)
      ↔ ∃ p, pts[i]? = some p ∧ q.Inside p := by
    intro i
    unfold testAt
    by_cases hi : i < pts.length
    · rw [List.getElem?_eq_getElem hi]; simp [hi, Box.Inside]
    · rw [List.getElem?_eq_none (by omega)]; simp
  refine ⟨?_, ?_⟩
  · exact nodup_perm_filter _ hn (fun i => by rw [hm, hmem])
  · intro i
    rw [← hmem, withinBboxPlain, List.mem_filter, List.mem_range]

theorem sq_lt_abs {d e r : ℚ} (hr : 0 < r) (h : d * d + e * e < r * r) : -r < d ∧ d < r := by
  have hd : d * d < r * r := by nlinarith [mul_self_nonneg e]
  exact abs_lt.1 (abs_lt_of_sq_lt_sq' (by nlinarith) hr.le |> fun h => abs_lt.2 h)

/-- C60, radii (Cartesian distance).  With its spatial index, `within_radius` selects the same
points in the same order as the plain scan: those nearer than the radius. -/
theorem C60_within_radius_agrees (cap : Nat) (hcap : 1 ≤ cap) (fuel : Nat) (pts : List Pt)
    (s : State) (hs : build cap fuel pts = some s) (c : Pt) (r : ℚ) :
    withinRadiusIndexed s pts c r = withinRadiusPlain pts c r ∧
    ∀ i, i ∈ withinRadiusPlain pts c r ↔ ∃ p, pts[i]? = some p ∧ 0 < r ∧
      (c.x - p.x) ^ 2 + (c.y - p.y) ^ 2 < r ^ 2 := by
  obtain ⟨hn, hm⟩ := C24_search_exact cap hcap fuel pts s hs ⟨c.x - r, c.y - r, c.x + r, c.y + r⟩
  refine ⟨?_, ?_⟩
  · apply nodup_perm_filter _ (hn.filter _)
    intro i
    rw [List.mem_filter, hm]
    unfold testAt
    by_cases hi : i < pts.length
    · rw [List.getElem?_eq_getElem hi]
      simp only [hi, true_and, Option.some.injEq]
      constructor
      · rintro ⟨_, h⟩; exact h
      · intro h
        refine ⟨⟨_, rfl, ?_⟩, h⟩
        simp only [nearer, decide_eq_true_eq] at h
        obtain ⟨h0, h1⟩ := h
        have hx := sq_lt_abs h0 h1
        have hy := sq_lt_abs h0 (by linarith : (c.y - pts[i].y) * (c.y - pts[i].y)
          + (c.x - pts[i].x) * (c.x - pts[i].x) < r * r)
        simp only [Box.Inside]
        refine ⟨?_, ?_, ?_, ?_⟩ <;> linarith [hx.1, hx.2, hy.1, hy.2]
    · rw [List.getElem?_eq_none (by omega)]; simp
  · intro i
    simp only [withinRadiusPlain, List.mem_filter, List.mem_range, testAt]
    by_cases hi : i < pts.length
    · rw [List.getElem?_eq_getElem hi]
      simp [hi, nearer, pow_two]
    · rw [List.getElem?_eq_none (by omega)]; simp

example : (build 3 5 exPts).map (fun s => withinRadiusIndexed s exPts ⟨0, 0⟩ (1 / 2))
    = some [0, 2, 3] := by decide +kernel

end Karta.Vec.QT
