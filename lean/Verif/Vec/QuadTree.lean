import Verif.Vec.Basic
import Mathlib.Data.List.Sort

/-!
Model of `/repo/karta/vector/quadtree.h` and `/repo/karta/vector/quadtree.pyx`.

Simplifications: coordinates are exact rationals; NaN coordinates (which raise `ValueError`,
quadtree.pyx 84-85) are not representable; memory management is not modelled, a node is a
value.  `qt_split` calls itself without any bound, so the model carries explicit fuel and
returns `none` when it runs out.
-/

namespace Karta.Vec.QT

/-- `Position` (quadtree.h 17-21). -/
structure Pos where
  id : Nat
  pt : Pt
  deriving DecidableEq

/-- `Quadrant` (quadtree.h). -/
inductive Quad where
  | ul | ur | ll | lr
  deriving DecidableEq

/-- `LeafNode` / `NonleafNode` (quadtree.h 28-45): leaf with its positions, or four children. -/
inductive Tree where
  | leaf (bb : Box) (ps : List Pos)
  | node (bb : Box) (ch : Quad → Tree)

/-- The `bbox` member of either node type. -/
def Tree.bb : Tree → Box
  | .leaf bb _ => bb
  | .node bb _ => bb

/-- Midpoint of a box (quadtree.h 184-185, 352-353). -/
def mid (b : Box) : Pt := ⟨(b.xmin + b.xmax) / 2, (b.ymin + b.ymax) / 2⟩

/-- `get_quadrant` (quadtree.h 351-367). -/
def quadrant (b : Box) (p : Pt) : Quad :=
  if p.x < (mid b).x then
    if p.y < (mid b).y then .ll else .ul
  else
    if p.y < (mid b).y then .lr else .ur

/-- Boxes of the four new leaves (quadtree.h 188-191). -/
def quadBox (b : Box) : Quad → Box
  | .ul => ⟨b.xmin, (mid b).y, (mid b).x, b.ymax⟩
  | .ur => ⟨(mid b).x, (mid b).y, b.xmax, b.ymax⟩
  | .ll => ⟨b.xmin, b.ymin, (mid b).x, (mid b).y⟩
  | .lr => ⟨(mid b).x, b.ymin, b.xmax, (mid b).y⟩

/-- Assignment to a child pointer. -/
def setChild (ch : Quad → Tree) (q : Quad) (t : Tree) : Quad → Tree :=
  fun q' => if q' = q then t else ch q'

/-- `qt_split` (quadtree.h 182-275) of a leaf with box `bb` and positions `ps`; `cap` is
`max_positions`.  At most one child is split again (the `else if` chain, 256-267); the
recursive call also stores its result in this node at the quadrant of the child's midpoint
(212-226). -/
def split (cap : Nat) : Nat → Box → List Pos → Option Tree
  | 0, _, _ => none
  | fuel + 1, bb, ps =>
    let part := fun q => ps.filter fun p => quadrant bb p.pt = q
    let ch := fun q => Tree.leaf (quadBox bb q) (part q)
    let again := fun q =>
      match split cap fuel (quadBox bb q) (part q) with
      | none => none
      | some s => some (.node bb (setChild (setChild ch (quadrant bb (mid (quadBox bb q))) s) q s))
    if cap ≤ (part .ul).length then again .ul
    else if cap ≤ (part .ur).length then again .ur
    else if cap ≤ (part .ll).length then again .ll
    else if cap ≤ (part .lr).length then again .lr
    else some (.node bb ch)

/-- `isduplicate` (quadtree.h 369-377): id of the first position with equal coordinates. -/
def duplicate (p : Pos) : List Pos → Option Nat
  | [] => none
  | q :: qs => if p.pt.x = q.pt.x ∧ p.pt.y = q.pt.y then some q.id else duplicate p qs

/-- Where the result of inserting into child `q` of a node with box `bb` is stored: a split
leaf is stored by the quadrant of its midpoint (quadtree.h 212-226), anything else in place. -/
def slot (bb : Box) (q : Quad) : Tree → Tree → Quad
  | .leaf lb _, .node _ _ => quadrant bb (mid lb)
  | _, _ => q

/-- `qt_insert` (quadtree.h 95-179): `(duplicate id, tree after the call)`. -/
def insert (cap fuel : Nat) : Tree → Pos → Option (Option Nat × Tree)
  | .leaf bb ps, p =>
    match duplicate p ps with
    | some i => some (some i, .leaf bb ps)
    | none =>
      if cap ≤ (ps ++ [p]).length then
        match split cap fuel bb (ps ++ [p]) with
        | none => none
        | some t => some (none, t)
      else some (none, .leaf bb (ps ++ [p]))
  | .node bb ch, p =>
    let q := quadrant bb p.pt
    match insert cap fuel (ch q) p with
    | none => none
    | some (d, t) => some (d, .node bb (setChild ch (slot bb q (ch q) t) t))

/-- `duplicates.setdefault(idup, []).append(i)` (quadtree.pyx 89-92). -/
def addDup (d : Nat → List Nat) (k i : Nat) : Nat → List Nat :=
  fun j => if j = k then d j ++ [i] else d j

/-- The tree under construction: root, and the dictionary of duplicates (an absent key is an
empty list). -/
structure State where
  root : Tree
  dups : Nat → List Nat

/-- Loop of `QuadTree.__cinit__` (quadtree.pyx 81-97). -/
def buildLoop (cap fuel : Nat) : List Pt → Nat → State → Option State
  | [], _, s => some s
  | p :: ps, i, s =>
    match insert cap fuel s.root ⟨i, p⟩ with
    | none => none
    | some (some k, _) => buildLoop cap fuel ps (i + 1) ⟨s.root, addDup s.dups k i⟩
    | some (none, t) => buildLoop cap fuel ps (i + 1) ⟨t, s.dups⟩

/-- `QuadTree(points, leaf_capacity)` (quadtree.pyx 61-101). The box of no points is four NaNs;
it is never looked at, any box stands for it. -/
def build (cap fuel : Nat) (pts : List Pt) : Option State :=
  buildLoop cap fuel pts 0 ⟨.leaf ((bbox pts).getD ⟨0, 0, 0, 0⟩) [], fun _ => []⟩

/-- `overlaps` (quadtree.h 389-397). -/
def overlaps (a b : Box) : Bool :=
  decide (min a.xmax b.xmax ≥ max a.xmin b.xmin ∧ min a.ymax b.ymax ≥ max a.ymin b.ymin)

/-- `iswithin` (quadtree.h 379-387). -/
def iswithin (b : Box) (p : Pt) : Bool :=
  decide (p.x > b.xmin ∧ p.x < b.xmax ∧ p.y > b.ymin ∧ p.y < b.ymax)

/-- Number of nodes, the termination measure of the search loop. -/
def Tree.size : Tree → Nat
  | .leaf _ _ => 1
  | .node _ ch => 1 + (ch .ul).size + (ch .ur).size + (ch .ll).size + (ch .lr).size

/-- Children pushed by one visit (quadtree.h 300-312), top of the stack first. -/
def pushed (q : Box) (ch : Quad → Tree) : List Tree :=
  ([Quad.lr, .ll, .ur, .ul].filter fun k => overlaps q (ch k).bb).map ch

theorem pushed_size (q : Box) (ch : Quad → Tree) :
    ((pushed q ch).map Tree.size).sum
      ≤ (ch .ul).size + (ch .ur).size + (ch .ll).size + (ch .lr).size := by
  simp only [pushed, List.filter_cons, List.filter_nil]
  cases overlaps q (ch .lr).bb <;> cases overlaps q (ch .ll).bb <;>
    cases overlaps q (ch .ur).bb <;> cases overlaps q (ch .ul).bb <;> simp <;> omega

/-- Loop of `qt_search_within` (quadtree.h 286-315): the stack of pending nodes, top first. -/
def searchLoop (q : Box) : List Tree → List Nat
  | [] => []
  | .leaf _ ps :: rest => (ps.filter fun p => iswithin q p.pt).map Pos.id ++ searchLoop q rest
  | .node _ ch :: rest => searchLoop q (pushed q ch ++ rest)
termination_by st => (st.map Tree.size).sum
decreasing_by
  · simp [Tree.size]
  · simp only [List.map_append, List.sum_append, List.map_cons, List.sum_cons, Tree.size]
    have := pushed_size q ch
    omega

/-- `QuadTree.search_within` (quadtree.pyx 118-132): results are popped from the end, each
preceded by its duplicates. -/
def search (s : State) (q : Box) : List Nat :=
  (searchLoop q [s.root]).reverse.flatMap fun i => s.dups i ++ [i]

end Karta.Vec.QT

namespace Karta.Vec.QT

/-- `list.sort()` on integers. -/
def sortInts (l : List Nat) : List Nat := l.insertionSort (· ≤ ·)

/-- A test applied to the point with index `i`. -/
def testAt (pts : List Pt) (i : Nat) (f : Pt → Bool) : Bool :=
  match pts[i]? with
  | some p => f p
  | none => false

/-- Indices kept by `Multipoint.within_bbox` with a spatial index (geometry.py 1383-1385). -/
def withinBboxIndexed (s : State) (q : Box) : List Nat := sortInts (search s q)

/-- Indices kept by `Multipoint.within_bbox` without one (geometry.py 1386-1388). -/
def withinBboxPlain (pts : List Pt) (q : Box) : List Nat :=
  (List.range pts.length).filter fun i => testAt pts i fun p =>
    decide (q.xmin < p.x ∧ p.x < q.xmax ∧ q.ymin < p.y ∧ p.y < q.ymax)

/-- `point.distance(other) < radius` in a Cartesian system (geometry.py 1371), with the square
root removed: `sqrt(d2) < r` iff `0 < r` and `d2 < r*r`. -/
def nearer (c p : Pt) (r : ℚ) : Bool :=
  decide (0 < r ∧ (c.x - p.x) * (c.x - p.x) + (c.y - p.y) * (c.y - p.y) < r * r)

/-- Indices kept by `Multipoint.within_radius` with a spatial index (geometry.py 1364-1373). -/
def withinRadiusIndexed (s : State) (pts : List Pt) (c : Pt) (r : ℚ) : List Nat :=
  sortInts ((search s ⟨c.x - r, c.y - r, c.x + r, c.y + r⟩).filter fun i =>
    testAt pts i fun p => nearer c p r)

/-- Indices kept by `Multipoint.within_radius` without one (geometry.py 1374-1376). -/
def withinRadiusPlain (pts : List Pt) (c : Pt) (r : ℚ) : List Nat :=
  (List.range pts.length).filter fun i => testAt pts i fun p => nearer c p r

end Karta.Vec.QT
