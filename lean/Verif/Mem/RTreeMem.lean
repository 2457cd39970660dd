import Verif.Mem.Heap
import Verif.Vec.RTree

/-!
Model of the memory used by the R-tree: `rt_new_node`, `rt_free` (karta/vector/rtree.h 56-97), `RTree.__init__`, `__dealloc__` and the
searches (karta/vector/rtree.pyx 43-108), on top of the model of the tree in `Verif.Vec.RTree`.

The blocks of a tree are named after what they hold.  Memory that `rt_insert` and the splits allocate and free again before they return
(rtree.h 204-205, 229-230, 383-392, 478-480) is left out.
-/

namespace Karta.Mem

open Karta.RTree (RBox RNode)

/-- A block: the struct of the node at `a`, its array of children, its array of indices and its box (`rt_new_node`, rtree.h 62-71), and the
box of the `i`-th geometry (`rt_new_bbox`, rtree.pyx 54). -/
inductive Blk where
  | node (a : Nat) | kids (a : Nat) | idx (a : Nat) | bb (a : Nat) | geom (i : Nat)
  deriving DecidableEq, Repr

/-- `free` of a named block. -/
def freeBlk (b : Blk) (live : Multiset Blk) : Except Fault (Multiset Blk) :=
  if b ∈ live then .ok (live.erase b) else .error .badFree

/-- Freeing blocks one after the other. -/
def freeBlks : List Blk → Multiset Blk → Except Fault (Multiset Blk)
  | [], live => .ok live
  | b :: bs, live => do
    let live ← freeBlk b live
    freeBlks bs live

/-- The blocks allocated by `rt_new_node` (rtree.h 62-71). -/
def nodeBlks (a : Nat) : List Blk := [.node a, .kids a, .idx a, .bb a]

/-- All that `RTree.__init__` has allocated for a tree of the nodes `h` and `n` geometries. -/
def treeBlks (h : RTree.Heap) (n : Nat) : List Blk :=
  (List.range h.length).flatMap nodeBlks ++ (List.range n).map Blk.geom

/-- `f` on each item in turn. -/
def eachDo {α β : Type _} (f : α → β → Except Fault β) : List α → β → Except Fault β
  | [], s => .ok s
  | x :: xs, s => do
    let s ← f x s
    eachDo f xs s

/-- `rt_free` (rtree.h 83-97): of a leaf the boxes of its entries, its indices, its box and its struct are freed; of another node nothing
but the nodes below it. -/
def rtFree (h : RTree.Heap) : Nat → Nat → Multiset Blk → Except Fault (Multiset Blk)
  | 0, _, _ => .error .fuel
  | fuel + 1, a, live =>
    if (h.node a).leaf then freeBlks ((h.node a).ents.map (fun e => Blk.geom e.2) ++ [.idx a, .bb a, .node a]) live
    else eachDo (rtFree h fuel) (h.node a).kids live

/-- The index of geometries from creation to `__dealloc__` (rtree.pyx 43-69).  A geometry without bounding box is `none`: `__init__` then
raises `AttributeError`, and since it stores the root only at its end, `__dealloc__` finds `NULL` and frees nothing.  The result tells
whether it raised, and what is still allocated. -/
def rtLife (M fuel : Nat) (geoms : List (Option RBox)) : Except Fault (Bool × Multiset Blk) :=
  match RTree.build M (geoms.takeWhile Option.isSome).reduceOption with
  | .error _ => .error .exit
  | .ok (h, root) =>
    if none ∈ geoms then .ok (true, treeBlks h (geoms.takeWhile Option.isSome).length)
    else do
      let live ← rtFree h fuel root (treeBlks h geoms.length)
      return (false, live)

/-- Loop of `rt_search_within` and `rt_search_overlapping` (rtree.h 137-159, 174-195) over the pools of nodes and of indices; the
parameters are those of `RTree.searchLoop`.  That nodes and boxes of the tree are live is not modelled here. -/
def rloop (h : RTree.Heap) (q : RBox) (test : RBox → RBox → Bool) (count : Bool) (max : Int) :
    Nat → Pool Nat → Pool Nat → Heap → Except Fault (Pool Nat × Pool Nat × Heap)
  | 0, _, _, _ => .error .fuel
  | fuel + 1, np, ip, g =>
    if ((if count then ip.items.length else 0 : Nat) : Int) = max then .ok (np, ip, g)
    else do
      let (a, np) ← poolPop np (np.items.length - 1) g
      if (h.node a).leaf then
        let (ip, g) ← addWhere (fun _ => true) (((h.node a).ents.filter fun e => test q e.1).map Prod.snd) ip g
        if np.items = [] then .ok (np, ip, g) else rloop h q test count max fuel np ip g
      else
        let (np, g) ← addWhere (fun k => RTree.isOverlapping q (h.node k).bbox) (h.node a).kids np g
        if np.items = [] then .ok (np, ip, g) else rloop h q test count max fuel np ip g

/-- Emptying the pool of indices (rtree.pyx 88-89). -/
def rdrain (g : Heap) : Nat → Pool Nat → List Nat → Except Fault (List Nat × Pool Nat)
  | 0, _, _ => .error .fuel
  | fuel + 1, p, out =>
    if p.items.length = 0 then .ok (out, p)
    else do
      let (i, p) ← poolPop p (p.items.length - 1) g
      rdrain g fuel p (out ++ [i])

/-- `RTree.search_within` and `search_overlapping` (rtree.pyx 76-108, rtree.h 128-198).  The box of the query is not freed. -/
def rsearch (fuel : Nat) (t : RTree.Heap × Nat) (q : RBox) (test : RBox → RBox → Bool) (count : Bool) (max : Int) (g : Heap) :
    Except Fault (List Nat × Heap) := do
  let (_, g) := g.alloc
  let (ip, g) := poolNew 16 g
  let (np, g) := poolNew 16 g
  let (np, g) ← poolAdd np t.2 g
  let (np, ip, g) ← rloop t.1 q test count max fuel np ip g
  let g ← poolDestroy np g
  let (out, ip) ← rdrain g fuel ip []
  let g ← poolDestroy ip g
  return (out, g)

end Karta.Mem
