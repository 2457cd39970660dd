import Verif.Py
import Mathlib.Data.Rat.Defs
import Mathlib.Algebra.Order.Ring.Unbundled.Rat

/-!
Model of the R-tree index: karta/vector/rtree.h, karta/vector/rtree.pyx and karta/vector/pool.h.

Nodes live in a heap and refer to each other by address (position in the heap), because the C code keeps
parent pointers that it does not always update.  Simplifications: C `float`s are exact rationals; `malloc`
succeeds.  `exit(1)` is the error `other`.
-/

namespace Karta.RTree
open Karta

/-- `Bbox` (rtree.h 13-18). -/
structure RBox where
  xmin : ℚ
  ymin : ℚ
  xmax : ℚ
  ymax : ℚ
  deriving DecidableEq, Repr

/-- The box extended to hold another one (`minf`/`maxf`, rtree.h 36-42, e.g. 212-215). -/
def RBox.grow (a b : RBox) : RBox :=
  ⟨min a.xmin b.xmin, min a.ymin b.ymin, max a.xmax b.xmax, max a.ymax b.ymax⟩

/-- The initial box of a new node (rtree.h 72-76). -/
def sentinel : RBox := ⟨10 ^ 38, 10 ^ 38, -10 ^ 38, -10 ^ 38⟩

/-- `RTreeNode` (rtree.h 20-29).  A leaf uses `ents` (boxes with their indices), another node `kids`
(addresses); `count` is the length of the list in use. -/
structure RNode where
  leaf : Bool
  parent : Option Nat
  kids : List Nat
  ents : List (RBox × Nat)
  bbox : RBox
  deriving Repr

/-- Memory: node addresses are positions. -/
abbrev Heap := List RNode

/-- Dereferencing an address. -/
def Heap.node (h : Heap) (a : Nat) : RNode := (h[a]?).getD ⟨true, none, [], [], sentinel⟩

/-- Writing to a node. -/
def Heap.put (h : Heap) (a : Nat) (f : RNode → RNode) : Heap := h.modify a f

/-- `volume_expanded` (rtree.h 675-682). -/
def volumeExpanded (a b : RBox) : ℚ :=
  (max a.xmax b.xmax - min a.xmin b.xmin) * (max a.ymax b.ymax - min a.ymin b.ymin) -
    (a.xmax - a.xmin) * (a.ymax - a.ymin)

/-- `is_within` (rtree.h 684-691). -/
def isWithin (outer test : RBox) : Bool :=
  decide (test.xmin > outer.xmin ∧ test.xmax ≤ outer.xmax ∧ test.ymin > outer.ymin ∧ test.ymax ≤ outer.ymax)

/-- `bbox_intersection_area` (rtree.h 693-698). -/
def intersectionArea (a b : RBox) : ℚ :=
  max (min a.xmax b.xmax - max a.xmin b.xmin) 0 * max (min a.ymax b.ymax - max a.ymin b.ymin) 0

/-- `is_overlapping` (rtree.h 700-706). -/
def isOverlapping (a b : RBox) : Bool := decide (intersectionArea a b > 0)

/-- `pool_pop` (pool.h 47-59): the last item takes the place of the one removed. -/
def poolPop {β : Type _} (l : List β) (i : Nat) : Except Err (List β) :=
  if i ≥ l.length then .error .other
  else
    match l.getLast? with
    | none => .error .other
    | some z => .ok ((l.set i z).dropLast)

/-- One axis of `linear_pick_seeds` (rtree.h 620-640): the positions `(imax_min, imin_max)` after looking
at the boxes `rest`, the first of which has position `k`. -/
def pickAxis (lo hi : RBox → ℚ) : List RBox → Nat → (Nat × RBox) → (Nat × RBox) → Nat × Nat
  | [], _, a, b => (a.1, b.1)
  | x :: rest, k, a, b =>
    if lo x > lo a.2 then pickAxis lo hi rest (k + 1) (k, x) b
    else if hi x < hi b.2 then pickAxis lo hi rest (k + 1) a (k, x)
    else pickAxis lo hi rest (k + 1) a b

/-- `linear_pick_seeds` (rtree.h 617-655); `none` when one dimension is degenerate. -/
def pickSeeds (boxes : List RBox) : Option (Nat × Nat) :=
  match boxes with
  | [] => none
  | b :: rest =>
    let u := rest.foldl RBox.grow b
    if u.xmax = u.xmin ∨ u.ymax = u.ymin then none
    else
      let sx := pickAxis RBox.xmin RBox.xmax rest 1 (0, b) (0, b)
      let sy := pickAxis RBox.ymin RBox.ymax rest 1 (0, b) (0, b)
      let at_ := fun (k : Nat) => (boxes[k]?).getD b
      let xrat := ((at_ sx.1).xmin - (at_ sx.2).xmax) / (u.xmax - u.xmin)
      let yrat := ((at_ sy.1).ymin - (at_ sy.2).ymax) / (u.ymax - u.ymin)
      if xrat > yrat then some sx else some sy

/-- A node being filled: its items and its box. -/
abbrev Side (β : Type _) := List β × RBox

/-- The distribution loop of `rt_split_leaf` and `rt_split_nonleaf` (rtree.h 434-476 and 549-588) with
`linear_pick_next` (659-671).  `l` is the pool in reverse order, since items are always taken from its end.
The box of a side is not updated when it is filled up to two items. -/
def distribute {β : Type _} (box : β → RBox) : List β → Side β → Side β → Side β × Side β
  | [], A, B => (A, B)
  | x :: l, A, B =>
    let A' : Side β := if volumeExpanded A.2 (box x) < volumeExpanded B.2 (box x) then
      (A.1 ++ [x], A.2.grow (box x)) else A
    let B' : Side β := if volumeExpanded A.2 (box x) < volumeExpanded B.2 (box x) then B else
      (B.1 ++ [x], B.2.grow (box x))
    if l.length + A'.1.length = 2 then ((A'.1 ++ l, A'.2), B')
    else if l.length + B'.1.length = 2 then (A', (B'.1 ++ l, B'.2))
    else distribute box l A' B'

/-- The seeds used for a split (rtree.h 396-403, 507-514). -/
def seeds {β : Type _} (box : β → RBox) (pool : List β) : Nat × Nat :=
  (pickSeeds (pool.map box)).getD (0, 1)

/-- Removing the seeds from the pool (rtree.h 418-428, 536-546). -/
def removeSeeds {β : Type _} (pool : List β) (s0 s1 : Nat) : Except Err (List β) :=
  if s1 > s0 then
    match poolPop pool s1 with
    | .error e => .error e
    | .ok p => poolPop p s0
  else
    match poolPop pool s0 with
    | .error e => .error e
    | .ok p => poolPop p s1

/-- The division of the items of an overfull node: what stays and what goes to the new sibling
(the common part of rtree.h 368-482 and 484-593). -/
def splitItems {β : Type _} (box : β → RBox) (pool : List β) : Except Err (Side β × Side β) :=
  let s := seeds box pool
  match pool[s.1]?, pool[s.2]? with
  | some a, some b =>
    match removeSeeds pool s.1 s.2 with
    | .error e => .error e
    | .ok rest => .ok (distribute box rest.reverse ([a], box a) ([b], box b))
  | _, _ => .error .other

/-- `rt_split_nonleaf` (rtree.h 484-593): the heap and the address of the sibling.  Only the two seeds get
a new parent. -/
def splitNonleaf (h : Heap) (a : Nat) : Except Err (Heap × Nat) :=
  let n := h.node a
  let box := fun k => (h.node k).bbox
  match splitItems box n.kids with
  | .error e => .error e
  | .ok (A, B) =>
    let sib := h.length
    let h1 := h.put a fun n => { n with kids := A.1, bbox := A.2 }
    let h2 : Heap := h1 ++ [⟨false, n.parent, B.1, [], B.2⟩]
    let h3 := (A.1.head?.map fun k => h2.put k fun n => { n with parent := some a }).getD h2
    let h4 := (B.1.head?.map fun k => h3.put k fun n => { n with parent := some sib }).getD h3
    .ok (h4, sib)

/-- Recomputing the box of a parent (rtree.h 263-290). -/
def refreshBox (h : Heap) (p : Nat) (sib : Option Nat) : RBox :=
  let kids := (h.node p).kids
  let box := fun k => (h.node k).bbox
  match sib with
  | some s => (kids.map box).foldl RBox.grow (box s)
  | none =>
    match kids with
    | [] => (h.node p).bbox
    | k :: ks => (ks.map box).foldl RBox.grow (box k)

/-- `add_node` without the test for overfilling (rtree.h 114-125). -/
def addKid (h : Heap) (p c : Nat) : Heap :=
  (h.put p fun n => { n with kids := n.kids ++ [c] }).put c fun n => { n with parent := some p }

/-- `rt_adjust_tree` (rtree.h 257-311): heap, root and sibling of the root.  `fuel` bounds the number of
steps towards the root; running out of it is reported as `keyError`, which nothing else raises. -/
def adjustTree (M : Nat) : Nat → Heap → Nat → Option Nat → Except Err (Heap × Nat × Option Nat)
  | 0, _, _, _ => .error .keyError
  | fuel + 1, h, a, sib =>
    match (h.node a).parent with
    | none => .ok (h, a, sib)
    | some p =>
      let h1 := h.put p fun n => { n with bbox := refreshBox h p sib }
      match sib with
      | none => adjustTree M fuel h1 p none
      | some s =>
        let h2 := addKid h1 p s
        if (h2.node p).kids.length > M then
          match splitNonleaf h2 p with
          | .error e => .error e
          | .ok (h3, s') => adjustTree M fuel h3 p (some s')
        else adjustTree M fuel h2 p none

/-- The first child with the least expansion (rtree.h 239-248). -/
def bestKid (h : Heap) (b : RBox) : List Nat → Nat → ℚ → Nat
  | [], best, _ => best
  | k :: ks, best, vol =>
    let v := volumeExpanded (h.node k).bbox b
    if v < vol then bestKid h b ks k v else bestKid h b ks best vol

/-- `rt_choose_leaf` (rtree.h 235-251). -/
def chooseLeaf (b : RBox) : Nat → Heap → Nat → Except Err Nat
  | 0, _, _ => .error .keyError
  | fuel + 1, h, a =>
    if (h.node a).leaf then .ok a
    else
      match (h.node a).kids with
      | [] => .error .other
      | k :: ks => chooseLeaf b fuel h (bestKid h b ks k (volumeExpanded (h.node k).bbox b))

/-- Appending an entry to a leaf (rtree.h 208-215). -/
def addEntry (h : Heap) (a : Nat) (e : RBox × Nat) : Heap :=
  h.put a fun n => { n with ents := n.ents ++ [e], bbox := n.bbox.grow e.1 }

/-- `rt_split_leaf` (rtree.h 368-482).  The seeds are placed by `rt_insert`, which also recomputes the
boxes of the ancestors. -/
def splitLeaf (M : Nat) (h : Heap) (a : Nat) : Except Err (Heap × Nat) :=
  let n := h.node a
  match splitItems Prod.fst n.ents with
  | .error e => .error e
  | .ok (A, B) =>
    let sib := h.length
    match A.1, B.1 with
    | e0 :: _, e1 :: _ =>
      let h1 : Heap := (h.put a fun n => { n with ents := [] }) ++ [⟨true, n.parent, [], [], sentinel⟩]
      match adjustTree M (h1.length + 1) (addEntry h1 a e0) a none with
      | .error e => .error e
      | .ok (h2, _) =>
        match adjustTree M (h1.length + 1) (addEntry h2 sib e1) sib none with
        | .error e => .error e
        | .ok (h3, _) =>
          .ok ((h3.put a fun n => { n with ents := A.1, bbox := A.2 }).put sib
            fun n => { n with ents := B.1, bbox := B.2 }, sib)
    | _, _ => .error .other

/-- `rt_insert` (rtree.h 201-232): heap and root. -/
def insert (M : Nat) (h : Heap) (root : Nat) (b : RBox) (idx : Nat) : Except Err (Heap × Nat) :=
  match chooseLeaf b (h.length + 1) h root with
  | .error e => .error e
  | .ok leaf =>
    let h1 := addEntry h leaf (b, idx)
    match (if (h1.node leaf).ents.length > M then
        (match splitLeaf M h1 leaf with
          | .error e => .error e
          | .ok (h2, s) => .ok (h2, some s))
      else .ok (h1, none) : Except Err (Heap × Option Nat)) with
    | .error e => .error e
    | .ok (h2, sib) =>
      match adjustTree M (h2.length + 1) h2 leaf sib with
      | .error e => .error e
      | .ok (h3, r, none) => .ok (h3, r)
      | .ok (h3, r, some s) =>
        let h4 : Heap := h3 ++ [⟨false, none, [], [], sentinel⟩]
        .ok (addKid (addKid h4 h3.length r) h3.length s, h3.length)

/-- The loop of `RTree.__init__` (rtree.pyx 50-61). -/
def buildLoop (M : Nat) : Heap → Nat → List RBox → Nat → Except Err (Heap × Nat)
  | h, root, [], _ => .ok (h, root)
  | h, root, b :: bs, i =>
    match insert M h root b i with
    | .error e => .error e
    | .ok (h', r') => buildLoop M h' r' bs (i + 1)

/-- `RTree.__init__` (rtree.pyx 43-65) given the bounding boxes of the geometries.  Fewer than four
children per node end the process (rtree.h 58-61). -/
def build (M : Nat) (boxes : List RBox) : Except Err (Heap × Nat) :=
  if M < 4 then .error .other
  else buildLoop M [⟨true, none, [], [], sentinel⟩] 0 boxes 0

/-- `RTree.bbox` (rtree.pyx 71-74). -/
def treeBox (t : Heap × Nat) : RBox := (t.1.node t.2).bbox

/-- The search loop (rtree.h 128-162 and 165-198): `pool` is the node pool with its end first, `found`
the index pool with its end first.  `test` is applied to the entries of leaves; `count` tells whether the
number of results is compared with `max` (`search_overlapping` compares a counter that stays zero).
`none` if more than `fuel` rounds are needed. -/
def searchLoop (h : Heap) (q : RBox) (test : RBox → RBox → Bool) (count : Bool) (max : Int) :
    Nat → List Nat → List Nat → Option (List Nat)
  | 0, _, _ => none
  | fuel + 1, pool, found =>
    if ((if count then found.length else 0 : Nat) : Int) = max then some found
    else
      match pool with
      | [] => none
      | a :: pool' =>
        let n := h.node a
        let found' := if n.leaf then ((n.ents.filter fun e => test q e.1).map Prod.snd).reverse ++ found else found
        let pool'' := if n.leaf then pool' else
          (n.kids.filter fun k => isOverlapping q (h.node k).bbox).reverse ++ pool'
        if pool'' = [] then some found'
        else searchLoop h q test count max fuel pool'' found'

/-- `RTree.search_within(bbox, max_results)` (rtree.pyx 76-91): indices are popped from the end. -/
def searchWithin (fuel : Nat) (t : Heap × Nat) (q : RBox) (max : Int) : Option (List Nat) :=
  searchLoop t.1 q isWithin true max fuel [t.2] []

/-- `RTree.search_overlapping(bbox, max_results)` (rtree.pyx 93-108). -/
def searchOverlapping (fuel : Nat) (t : Heap × Nat) (q : RBox) (max : Int) : Option (List Nat) :=
  searchLoop t.1 q isOverlapping false max fuel [t.2] []

end Karta.RTree
