import Verif.Vec.QuadTree
import Mathlib.Data.Multiset.AddSub
import Mathlib.Data.Multiset.UnionInter
import Mathlib.Data.Multiset.Filter

/-!
Model of the memory used by the C code of the spatial indexes: `/repo/karta/vector/pool.h`, the allocations and frees of
`/repo/karta/vector/quadtree.h` and of its caller `/repo/karta/vector/quadtree.pyx`.

Every `malloc` gives a new address; the heap knows which addresses have not been freed.  Freeing an address that is not live (a double
free) and reading or writing through it are faults, as is writing past the end of an array.  `malloc` always succeeds (the code does
not test for failure).  An address is never used again after it was freed, so that a use after free cannot go unnoticed.
-/

namespace Karta.Mem

open Karta.Vec Karta.Vec.QT

/-- What can go wrong: freeing or touching memory that is not live, writing past an array, leaving through `exit(1)` (pool.h 53, 67), and
running out of the fuel of the model. -/
inductive Fault where
  | badFree | badAccess | overflow | exit | fuel
  deriving DecidableEq, Repr

/-- The heap of the process: the next new address, and the addresses allocated and not yet freed. -/
structure Heap where
  next : Nat
  live : Multiset Nat
  deriving DecidableEq

/-- `malloc`. -/
def Heap.alloc (h : Heap) : Nat × Heap := (h.next, ⟨h.next + 1, h.next ::ₘ h.live⟩)

/-- `free`. -/
def Heap.free (h : Heap) (a : Nat) : Except Fault Heap :=
  if a ∈ h.live then .ok ⟨h.next, h.live.erase a⟩ else .error .badFree

/-- `free` of a pointer that may be `NULL`. -/
def Heap.freeOpt (h : Heap) : Option Nat → Except Fault Heap
  | none => .ok h
  | some a => h.free a

/-- Reading or writing through a pointer to the block `a`. -/
def Heap.touch (h : Heap) (a : Nat) : Except Fault Unit :=
  if a ∈ h.live then .ok () else .error .badAccess

/-! ### pool.h -/

/-- `Pool` (pool.h 5-9): the struct at `addr`, the array at `members` with `size` slots of which the first `items.length` (`count`) are
filled. -/
structure Pool (α : Type _) where
  addr : Nat
  members : Nat
  size : Nat
  items : List α

/-- `pool_new` (pool.h 12-18). -/
def poolNew {α : Type _} (size : Nat) (h : Heap) : Pool α × Heap :=
  (⟨h.alloc.1, h.alloc.2.alloc.1, size, []⟩, h.alloc.2.alloc.2)

/-- `pool_resize` (pool.h 20-31): a new array of twice the size, into which all slots are copied. -/
def poolResize {α : Type _} (p : Pool α) (h : Heap) : Except Fault (Pool α × Heap) := do
  h.touch p.addr
  let h1 := h.alloc.2
  h1.touch p.members
  let h2 ← h1.free p.members
  return ({ p with members := h.alloc.1, size := p.size * 2 }, h2)

/-- `members[count] = item; count += 1` (pool.h 41-42). -/
def poolStore {α : Type _} (p : Pool α) (x : α) (h : Heap) : Except Fault (Pool α × Heap) := do
  h.touch p.members
  if p.items.length < p.size then return ({ p with items := p.items ++ [x] }, h) else .error .overflow

/-- `pool_add` (pool.h 33-45). -/
def poolAdd {α : Type _} (p : Pool α) (x : α) (h : Heap) : Except Fault (Pool α × Heap) := do
  h.touch p.addr
  if p.size = p.items.length then
    let (p, h) ← poolResize p h
    poolStore p x h
  else poolStore p x h

/-- `pool_pop(pool, index)` (pool.h 48-60): the last item takes the place of the one that is removed. -/
def poolPop {α : Type _} (p : Pool α) (index : Nat) (h : Heap) : Except Fault (α × Pool α) := do
  h.touch p.addr
  h.touch p.members
  match p.items[index]?, p.items.getLast? with
  | some x, some last => return (x, { p with items := (p.items.set index last).dropLast })
  | _, _ => .error .exit

/-- `pool_destroy` (pool.h 72-75). -/
def poolDestroy {α : Type _} (p : Pool α) (h : Heap) : Except Fault Heap := do
  h.touch p.addr
  let h ← h.free p.members
  h.free p.addr

/-! ### quadtree.h -/

/-- A quadtree with the addresses of its blocks: a leaf is a struct, a box and an array of positions (quadtree.h 28-35, 62-71), an inner
node a struct and a box (37-45, 73-79). -/
inductive MTree where
  | leaf (addr bba posa : Nat) (bb : Box) (ps : List Pos)
  | node (addr bba : Nat) (bb : Box) (ch : Quad → MTree)

/-- The tree without addresses. -/
def MTree.erase : MTree → Tree
  | .leaf _ _ _ bb ps => .leaf bb ps
  | .node _ _ bb ch => .node bb fun q => (ch q).erase

/-- Address of the node. -/
def MTree.addr : MTree → Nat
  | .leaf a _ _ _ _ => a
  | .node a _ _ _ => a

/-- Address of the box of the node. -/
def MTree.bba : MTree → Nat
  | .leaf _ b _ _ _ => b
  | .node _ b _ _ => b

/-- `qt_free_node` (quadtree.h 327-349) of a leaf whose `bbox` pointer may be `NULL`. -/
def freeLeaf (addr : Nat) (bba : Option Nat) (posa : Nat) (h : Heap) : Except Fault Heap := do
  h.touch addr
  let h ← h.freeOpt bba
  let h ← h.free posa
  h.free addr

/-- `qt_free_node` (quadtree.h 327-349). -/
def freeNode : MTree → Heap → Except Fault Heap
  | .leaf a b p _ _, h => freeLeaf a (some b) p h
  | .node a b _ ch, h => do
    h.touch a
    let h ← freeNode (ch .ul) h
    let h ← freeNode (ch .ur) h
    let h ← freeNode (ch .ll) h
    let h ← freeNode (ch .lr) h
    let h ← h.free b
    h.free a

/-- The three blocks of a leaf. -/
structure LeafAddr where
  addr : Nat
  bba : Nat
  posa : Nat

/-- `qt_new_leaf` (quadtree.h 62-71) for a box that is already allocated. -/
def newLeaf (bba : Nat) (h : Heap) : LeafAddr × Heap :=
  (⟨h.alloc.1, bba, h.alloc.2.alloc.1⟩, h.alloc.2.alloc.2)

/-- Assignment to a child pointer. -/
def msetChild (ch : Quad → MTree) (q : Quad) (t : MTree) : Quad → MTree :=
  fun q' => if q' = q then t else ch q'

/-- Looking at the parent of a node to store a new child there (quadtree.h 212-226). -/
def touchParent (h : Heap) : Option (Nat × Nat) → Except Fault Unit
  | none => .ok ()
  | some (a, b) => do h.touch a; h.touch b

/-- The array of positions of a leaf has `max_positions + 1` slots (quadtree.h 68). -/
def fits (cap n : Nat) : Except Fault Unit := if n ≤ cap + 1 then .ok () else .error .overflow

/-- The allocations of `qt_split` (quadtree.h 188-200): four boxes, the new inner node, four leaves. -/
def splitAlloc (h : Heap) : (Nat × (Quad → LeafAddr)) × Heap :=
  let bul := h.alloc
  let bur := bul.2.alloc
  let bll := bur.2.alloc
  let blr := bll.2.alloc
  let par := blr.2.alloc
  let lul := newLeaf bul.1 par.2
  let lur := newLeaf bur.1 lul.2
  let lll := newLeaf bll.1 lur.2
  let llr := newLeaf blr.1 lll.2
  ((par.1, fun q => match q with | .ul => lul.1 | .ur => lur.1 | .ll => lll.1 | .lr => llr.1), llr.2)

/-- `qt_split` (quadtree.h 182-275) of the leaf at `A` with box `bb` and positions `ps`; `gp` are the node and box of its parent.  The new
inner node takes over the box of the leaf; node and array of the leaf are freed at the end. -/
def msplit (cap : Nat) : Nat → LeafAddr → Option (Nat × Nat) → Box → List Pos → Heap → Except Fault (MTree × Heap)
  | 0, _, _, _, _, _ => .error .fuel
  | fuel + 1, A, gp, bb, ps, h => do
    h.touch A.addr
    h.touch A.bba
    let ((par, L), h) := splitAlloc h
    touchParent h gp
    h.touch A.posa
    let part := fun q => ps.filter fun p => quadrant bb p.pt = q
    fits cap (part .ul).length
    fits cap (part .ur).length
    fits cap (part .ll).length
    fits cap (part .lr).length
    let ch := fun q => MTree.leaf (L q).addr (L q).bba (L q).posa (quadBox bb q) (part q)
    let again := fun q => do
      let (s, h) ← msplit cap fuel (L q) (some (par, A.bba)) (quadBox bb q) (part q) h
      let h ← freeLeaf A.addr none A.posa h
      return (MTree.node par A.bba bb (msetChild (msetChild ch (quadrant bb (mid (quadBox bb q))) s) q s), h)
    if cap ≤ (part .ul).length then again .ul
    else if cap ≤ (part .ur).length then again .ur
    else if cap ≤ (part .ll).length then again .ll
    else if cap ≤ (part .lr).length then again .lr
    else do
      let h ← freeLeaf A.addr none A.posa h
      return (.node par A.bba bb ch, h)

/-- `qt_insert` (quadtree.h 95-179): the duplicate, the tree and the heap after the call.  The loop of the code is a recursion here. -/
def minsert (cap fuel : Nat) : MTree → Option (Nat × Nat) → Pos → Heap → Except Fault (Option Nat × MTree × Heap)
  | .leaf a b pa bb ps, gp, p, h => do
    h.touch a
    h.touch pa
    match duplicate p ps with
    | some i => return (some i, .leaf a b pa bb ps, h)
    | none =>
      fits cap (ps ++ [p]).length
      if cap ≤ (ps ++ [p]).length then
        let (t, h) ← msplit cap fuel ⟨a, b, pa⟩ gp bb (ps ++ [p]) h
        return (none, t, h)
      else return (none, .leaf a b pa bb (ps ++ [p]), h)
  | .node a b bb ch, _, p, h => do
    h.touch a
    h.touch b
    let q := quadrant bb p.pt
    let (d, t, h) ← minsert cap fuel (ch q) (some (a, b)) p h
    return (d, .node a b bb (msetChild ch (slot bb q (ch q).erase t.erase) t), h)

/-- The tree under construction and the dictionary of duplicates. -/
structure MState where
  root : MTree
  dups : Nat → List Nat

/-- Loop of `QuadTree.__cinit__` (quadtree.pyx 81-97).  A point with a coordinate that is not a number is `none`; there the loop raises
`ValueError`, which the flag of the result tells. -/
def mbuildLoop (cap fuel : Nat) : List (Option Pt) → Nat → MState → Heap → Except Fault (Bool × MState × Heap)
  | [], _, s, h => .ok (false, s, h)
  | none :: _, _, s, h => .ok (true, s, h)
  | some p :: ps, i, s, h => do
    let pos := h.alloc.1
    let (d, t, h) ← minsert cap fuel s.root none ⟨i, p⟩ h.alloc.2
    let h ← h.free pos
    match d with
    | some k => mbuildLoop cap fuel ps (i + 1) ⟨s.root, addDup s.dups k i⟩ h
    | none => mbuildLoop cap fuel ps (i + 1) ⟨t, s.dups⟩ h

/-- `QuadTree.__cinit__` (quadtree.pyx 61-101) for points with the bounding box `bb`. -/
def mbuild (cap fuel : Nat) (bb : Box) (pts : List (Option Pt)) (h : Heap) : Except Fault (Bool × MState × Heap) :=
  let b := h.alloc
  let l := newLeaf b.1 b.2
  mbuildLoop cap fuel pts 0 ⟨.leaf l.1.addr l.1.bba l.1.posa bb [], fun _ => []⟩ l.2

/-- `QuadTree.__dealloc__` (quadtree.pyx 103-105); Python calls it also after `__cinit__` raised. -/
def mdealloc (s : MState) (h : Heap) : Except Fault Heap := freeNode s.root h

/-- Adding those of the items that pass a test to a pool, one after the other. -/
def addWhere {α : Type _} (P : α → Bool) : List α → Pool α → Heap → Except Fault (Pool α × Heap)
  | [], r, h => .ok (r, h)
  | x :: xs, r, h => do
    if P x then
      let (r, h) ← poolAdd r x h
      addWhere P xs r h
    else addWhere P xs r h

/-- Touching node and box of each child (quadtree.h 300-311). -/
def touchAll (h : Heap) : List MTree → Except Fault Unit
  | [] => .ok ()
  | t :: ts => do h.touch t.addr; h.touch t.bba; touchAll h ts

/-- Loop of `qt_search_within` (quadtree.h 284-315) over the pools `quadrants` and `results`.  The pools keep pointers to slots of nodes
and of arrays of positions; here they keep what these point to. -/
def msearchLoop (q : Box) : Nat → Pool MTree → Pool Pos → Heap → Except Fault (Pool MTree × Pool Pos × Heap)
  | 0, _, _, _ => .error .fuel
  | fuel + 1, st, res, h =>
    if st.items.length = 0 then .ok (st, res, h)
    else do
      let (t, st) ← poolPop st (st.items.length - 1) h
      h.touch t.addr
      match t with
      | .leaf _ _ pa _ ps => do
        h.touch pa
        let (res, h) ← addWhere (fun p => iswithin q p.pt) ps res h
        msearchLoop q fuel st res h
      | .node _ _ _ ch => do
        touchAll h [ch .ul, ch .ur, ch .ll, ch .lr]
        let (st, h) ← addWhere (fun c => overlaps q c.erase.bb) [ch .ul, ch .ur, ch .ll, ch .lr] st h
        msearchLoop q fuel st res h

/-- `qt_search_within` (quadtree.h 277-317). -/
def msearchWithin (fuel : Nat) (t : MTree) (q : Box) (h : Heap) : Except Fault (Pool Pos × Heap) := do
  let (res, h) := poolNew 64 h
  let (st, h) := poolNew 16 h
  let (st, h) ← poolAdd st t h
  let (st, res, h) ← msearchLoop q fuel st res h
  let h ← poolDestroy st h
  return (res, h)

/-- Emptying the pool of results (quadtree.pyx 126-130); the pool is not destroyed. -/
def drain (dups : Nat → List Nat) (h : Heap) : Nat → Pool Pos → List Nat → Except Fault (List Nat)
  | 0, _, _ => .error .fuel
  | fuel + 1, res, out =>
    if res.items.length = 0 then .ok out
    else do
      let (p, res) ← poolPop res (res.items.length - 1) h
      drain dups h fuel res (out ++ dups p.id ++ [p.id])

/-- `QuadTree.search_within` (quadtree.pyx 118-132). -/
def msearch (fuel : Nat) (s : MState) (q : Box) (h : Heap) : Except Fault (List Nat × Heap) := do
  let (bb, h) := h.alloc
  let (res, h) ← msearchWithin fuel s.root q h
  let out ← drain s.dups h fuel res []
  let h ← h.free bb
  return (out, h)

end Karta.Mem
