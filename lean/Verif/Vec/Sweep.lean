import Verif.Vec.Planar

/-!
Model of the sweep-line intersection test `intersects` (karta/vector/intersection.pyx 70-340) and of
`ConnectedMultiVertexMixin.intersects` (karta/vector/geometry.py 678-697) for planar coordinates.

Numbers are exact rationals.  The event queue, a binary heap of pairs `(x, event)` whose events are ordered
by their segment tuples, is represented by the sorted list of its contents; the order of events with the
same abscissa and the same segment is the order of insertion, which makes no difference because such
events are identical or form a pair of kinds 2 and 3, of which the latter is ignored.
-/

namespace Karta.Vec.Sweep
open Karta Karta.Vec

/-- A segment tuple `(x0, y0, x1, y1, color)`; the colour tells to which geometry it belongs. -/
structure CSeg where
  seg : Seg
  color : Bool
  deriving DecidableEq

/-- An `Event` together with its abscissa (intersection.pyx 70-86).  Kinds: 0 left end, 1 right end, 2 bottom
and 3 top of a vertical segment. -/
structure Ev where
  x : ℚ
  seg : CSeg
  kind : Nat
  deriving DecidableEq

/-- The tuple compared by the heap: abscissa, then segment (intersection.pyx 88-102, 114). -/
def Ev.key (e : Ev) : List ℚ :=
  [e.x, e.seg.seg.a.x, e.seg.seg.a.y, e.seg.seg.b.x, e.seg.seg.b.y, if e.seg.color then 1 else 0]

/-- Insertion into the event queue (intersection.pyx 113-115). -/
def evInsert (e : Ev) : List Ev → List Ev
  | [] => [e]
  | f :: l => if e.key < f.key then e :: f :: l else f :: evInsert e l

/-- The two events of a segment, in order of insertion (intersection.pyx 225-242, 244-261). -/
def evsOf (s : CSeg) : List Ev :=
  if s.seg.a.x = s.seg.b.x then
    if s.seg.a.y < s.seg.b.y then [⟨s.seg.a.x, s, 2⟩, ⟨s.seg.a.x, s, 3⟩] else [⟨s.seg.a.x, s, 3⟩, ⟨s.seg.a.x, s, 2⟩]
  else if s.seg.a.x < s.seg.b.x then [⟨s.seg.a.x, s, 0⟩, ⟨s.seg.b.x, s, 1⟩]
  else [⟨s.seg.b.x, s, 0⟩, ⟨s.seg.a.x, s, 1⟩]

/-- The event queue once it has been filled. -/
def eventQueue (segs : List CSeg) : List Ev := (segs.flatMap evsOf).foldl (fun q (e : Ev) => evInsert e q) []

/-- The groups of simultaneous events, in the order in which `takefirst` delivers them
(intersection.pyx 117-126, 276-280). -/
def batches : List Ev → List (List Ev)
  | [] => []
  | e :: l =>
    match batches l with
    | (f :: b) :: rest => if e.x = f.x then (e :: f :: b) :: rest else [e] :: (f :: b) :: rest
    | rest => [e] :: rest

/-- Slope part of `_get_slope_height` (intersection.pyx 139-152). -/
def slope (s : CSeg) : ℚ :=
  if s.seg.b.y = s.seg.a.y then 0 else (s.seg.b.y - s.seg.a.y) / (s.seg.b.x - s.seg.a.x)

/-- Height part of `_get_slope_height` (intersection.pyx 139-152). -/
def height (s : CSeg) (x : ℚ) : ℚ :=
  if s.seg.b.y = s.seg.a.y then s.seg.a.y
  else (s.seg.b.y - s.seg.a.y) / (s.seg.b.x - s.seg.a.x) * (x - s.seg.a.x) + s.seg.a.y

/-- `SweepLinePlaceholder.insert` (intersection.pyx 154-169). -/
def sweepInsert (x : ℚ) (item : CSeg) : List CSeg → List CSeg
  | [] => [item]
  | s :: q => if height s x < height item x ∨ (height s x = height item x ∧ slope s < slope item) then
      s :: sweepInsert x item q else item :: s :: q

/-- `leftof` (intersection.pyx 171-177); `queue.index` raises ValueError. -/
def leftof (q : List CSeg) (s : CSeg) : Except Err (Option CSeg) :=
  if s ∈ q then .ok (if q.idxOf s = 0 then none else q[q.idxOf s - 1]?) else .error .valueError

/-- `rightof` (intersection.pyx 179-185). -/
def rightof (q : List CSeg) (s : CSeg) : Except Err (Option CSeg) :=
  if s ∈ q then .ok (if q.idxOf s = q.length - 1 then none else q[q.idxOf s + 1]?) else .error .valueError

/-- `while s is not None and s in (ending segments): s = next(s)` (intersection.pyx 293-298), for at most
`fuel` rounds; more are reported as `other`. -/
def walk (next : CSeg → Except Err (Option CSeg)) (ending : List CSeg) : Nat → Option CSeg → Except Err (Option CSeg)
  | 0, _ => .error .other
  | _ + 1, none => .ok none
  | fuel + 1, some s =>
    if s ∈ ending then
      match next s with
      | .error e => .error e
      | .ok s' => walk next ending fuel s'
    else .ok (some s)

/-- The loop over ending segments (intersection.pyx 287-301): what remains of the sweep line, and for each
event its neighbours.  A walk that has not ended after `length + 2` rounds has come back to a segment it
has visited and never ends (theorem `walk_forever`). -/
def endLoop (ending : List CSeg) : List Ev → List CSeg → Except Err (List CSeg × List (Ev × Option CSeg × Option CSeg))
  | [], q => .ok (q, [])
  | e :: es, q =>
    if e.kind = 1 then
      match walk (leftof q) ending (q.length + 2) (some e.seg) with
      | .error x => .error x
      | .ok l =>
        match walk (rightof q) ending (q.length + 2) (some e.seg) with
        | .error x => .error x
        | .ok r =>
          if e.seg ∈ q then
            match endLoop ending es (q.erase e.seg) with
            | .error x => .error x
            | .ok (q', out) => .ok (q', (e, l, r) :: out)
          else .error .valueError
    else
      match endLoop ending es q with
      | .error x => .error x
      | .ok (q', out) => .ok (q', (e, none, none) :: out)

/-- `_intersects` (intersection.pyx 500-513). -/
def cIntersects (p r : CSeg) : Bool := if p.color = r.color then false else segIntersects p.seg r.seg

/-- The test of a vertical segment against one segment of the sweep line (intersection.pyx 311-320). -/
def verticalHit (v s : CSeg) : Bool :=
  if v.color = s.color then false
  else
    let y := (s.seg.b.y - s.seg.a.y) / (s.seg.b.x - s.seg.a.x) * (v.seg.a.x - s.seg.a.x) + s.seg.a.y
    decide ((v.seg.a.y ≤ y ∧ v.seg.b.y ≥ y) ∨ (v.seg.b.y ≤ y ∧ v.seg.a.y ≥ y))

/-- The check made for one event (intersection.pyx 303-338). -/
def check (q : List CSeg) (e : Ev) (l r : Option CSeg) : Except Err Bool :=
  if e.kind = 2 then .ok (q.any fun s => verticalHit e.seg s)
  else if e.kind = 0 then
    match leftof q e.seg, rightof q e.seg with
    | .ok l', .ok r' => .ok ((l'.map fun s => cIntersects s e.seg).getD false || (r'.map fun s => cIntersects e.seg s).getD false)
    | .error x, _ => .error x
    | _, .error x => .error x
  else if e.kind = 1 then .ok ((l.bind fun s => r.map fun t => cIntersects s t).getD false)
  else .ok false

/-- The loop of checks, which stops at the first success. -/
def checkLoop (q : List CSeg) : List (Ev × Option CSeg × Option CSeg) → Except Err Bool
  | [] => .ok false
  | (e, l, r) :: es =>
    match check q e l r with
    | .error x => .error x
    | .ok true => .ok true
    | .ok false => checkLoop q es

/-- Insertion of the segments that begin (intersection.pyx 282-285). -/
def beginLoop (evs : List Ev) (q : List CSeg) : List CSeg :=
  evs.foldl (fun q (e : Ev) => if e.kind = 0 then sweepInsert e.x e.seg q else q) q

/-- Segments that end with these events. -/
def endingSegs (evs : List Ev) : List CSeg := (evs.filter fun e => e.kind = 1).map Ev.seg

/-- The main loop (intersection.pyx 273-340). -/
def sweep : List (List Ev) → List CSeg → Except Err Bool
  | [], _ => .ok false
  | evs :: rest, q =>
    match endLoop (endingSegs evs) evs (beginLoop evs q) with
    | .error x => .error x
    | .ok (q', out) =>
      match checkLoop q' out with
      | .error x => .error x
      | .ok true => .ok true
      | .ok false => sweep rest q'

/-- The segments of both geometries with their colours (intersection.pyx 205-209, 225-231, 244-250). -/
def colored (ringA : Bool) (as : List Pt) (ringB : Bool) (bs : List Pt) : List CSeg :=
  (segsOf ringA as).map (fun s => ⟨s, false⟩) ++ (segsOf ringB bs).map (fun s => ⟨s, true⟩)

/-- `intersects` (intersection.pyx 193-340). -/
def intersects (ringA : Bool) (as : List Pt) (ringB : Bool) (bs : List Pt) : Except Err Bool :=
  sweep (batches (eventQueue (colored ringA as ringB bs))) []

/-- `ConnectedMultiVertexMixin.intersects` (geometry.py 678-697) for planar coordinates.  The bounding box
of a geometry without vertices is made of NaNs, and `bboxes_overlap` of it is True. -/
def geomIntersects (ringA : Bool) (as : List Pt) (ringB : Bool) (bs : List Pt) : Except Err Bool :=
  match bbox as, bbox bs with
  | some a, some b => if bboxesOverlap a b then intersects ringA as ringB bs else .ok false
  | _, _ => intersects ringA as ringB bs

end Karta.Vec.Sweep
