import Verif.Geod.Sphere
import Verif.Geod.Angle
import Verif.Vec.Sweep

/-!
# The compiled intersection tests on the sphere

Model of `intersects_sph`, `_intersects_sph`, `intersection_meridian` and `intersection_sph` (karta/vector/intersection.pyx
341-498, 553-604) and of what they use of karta/vector/vectorgeo.pyx.  Coordinates are rational numbers of degrees,
directions are real vectors; rounding is not modelled.  NaN is `none`.
-/

namespace Karta.Geod.Cross
open Karta Karta.Geod Karta.Geod.Sphere
open Karta.Vec (Pt)
open Karta.Vec.Sweep (CSeg Ev)

/-- `cross3` (vectorgeo.pyx 28-29).  The second component has the opposite sign of that of the cross product. -/
def cross3 (u v : V3) : V3 := ⟨u.y * v.z - u.z * v.y, u.x * v.z - u.z * v.x, u.x * v.y - u.y * v.x⟩

/-- `sph2cart` of a vertex (vectorgeo.pyx 131-138). -/
noncomputable def vec (p : Pt) : V3 := sph2cart p.x p.y

/-- `eulerpole` (vectorgeo.pyx 159-163). -/
noncomputable def pole (s : Vec.Seg) : V3 := cross3 (vec s.a) (vec s.b)

/-- `isbetween_inc` (intersection.pyx 10-11). -/
def betweenInc (a b c : ℝ) : Prop := min a c ≤ b ∧ b ≤ max a c

/-- `cart2sph` in C, where a division by zero gives NaN (vectorgeo.pyx 140-154).  The longitude is NaN exactly when the
model of the Python version fails; the latitude is then not used. -/
noncomputable def toLonLat (v : V3) : Option (ℝ × ℝ) :=
  match cart2sph (1 / 10 ^ 8) v with
  | .ok p => some p
  | .error _ => none

/-- The antipodal longitude (intersection.pyx 558, 576, 597). -/
noncomputable def antiLon (lon : ℝ) : ℝ := pyModR (lon + 360) 360 - 180

open Classical in
/-- `_intersects_sph` (intersection.pyx 553-564). -/
noncomputable def pairHit (s r : Vec.Seg) : Bool :=
  match toLonLat (cross3 (pole s) (pole r)) with
  | none => false
  | some p =>
    if betweenInc s.a.x p.1 s.b.x ∧ betweenInc r.a.x p.1 r.b.x then true
    else if betweenInc s.a.x (antiLon p.1) s.b.x ∧ betweenInc r.a.x (antiLon p.1) r.b.x then true
    else false

/-- Reduction of the latitude (intersection.pyx 575, 596). -/
noncomputable def reduceLat (lat : ℝ) : ℝ := pyModR (lat + 90) 180 - 90

open Classical in
/-- `intersection_meridian` (intersection.pyx 566-583). -/
noncomputable def meridianLat (s : Vec.Seg) (xm : ℚ) : Option ℝ :=
  match toLonLat (cross3 (pole s) ⟨Real.sin (Real.pi * xm / 180), Real.cos (Real.pi * xm / 180), 0⟩) with
  | none => none
  | some p =>
    let lon := Sphere.reduceDeg p.1
    let lat := reduceLat p.2
    if betweenInc s.a.x lon s.b.x then some lat
    else if betweenInc s.a.x (antiLon lon) s.b.x then some (-lat)
    else none

open Classical in
/-- `intersection_sph` (intersection.pyx 585-604). -/
noncomputable def intersectionSph (s r : Vec.Seg) : Option (ℝ × ℝ) :=
  match toLonLat (cross3 (pole s) (pole r)) with
  | none => none
  | some p =>
    let lon := Sphere.reduceDeg p.1
    let lat := reduceLat p.2
    if betweenInc s.a.x lon s.b.x ∧ betweenInc r.a.x lon r.b.x then some (lon, lat)
    else if betweenInc s.a.x (antiLon lon) s.b.x ∧ betweenInc r.a.x (antiLon lon) r.b.x then some (antiLon lon, -lat)
    else none

/-- Slope part of `_get_slope_height` on the sphere (intersection.pyx 142-143, vectorgeo.pyx 169-176). -/
noncomputable def slopeSph (s : CSeg) : ℝ :=
  let y1 := (s.seg.a.y : ℝ) * Real.pi / 180
  let y2 := (s.seg.b.y : ℝ) * Real.pi / 180
  let dlon := ((s.seg.b.x : ℝ) - s.seg.a.x) * Real.pi / 180
  let m := -(atan2 (Real.sin dlon) (Real.cos y1 * Real.tan y2 - Real.sin y1 * Real.cos dlon) * 180 / Real.pi - 90)
  m

/-- Height part of `_get_slope_height` on the sphere (intersection.pyx 144-146).  The normal of the segment from pole to pole is
zero, and the height NaN (`heightSph_none`).  With rounding the normal has a length of 1e-16, and the height is NaN too unless the
longitude computed from it is exactly `x`. -/
noncomputable def heightSph (s : CSeg) (x : ℚ) : Option ℝ := (intersectionSph s.seg ⟨⟨x, -90⟩, ⟨x, 90⟩⟩).map Prod.snd

/-- `a < b` for floats, where NaN is in no relation to anything. -/
def fltLt : Option ℝ → Option ℝ → Prop
  | some a, some b => a < b
  | _, _ => False

/-- `a == b` for floats. -/
def fltEq : Option ℝ → Option ℝ → Prop
  | some a, some b => a = b
  | _, _ => False

open Classical in
/-- `SweepLinePlaceholder.insert` on the sphere (intersection.pyx 154-169). -/
noncomputable def sweepInsertSph (x : ℚ) (item : CSeg) : List CSeg → List CSeg
  | [] => [item]
  | s :: q => if fltLt (heightSph s x) (heightSph item x) ∨
      (fltEq (heightSph s x) (heightSph item x) ∧ slopeSph s < slopeSph item) then
      s :: sweepInsertSph x item q else item :: s :: q

open Classical in
/-- The test of a segment along a meridian against one segment of the sweep line (intersection.pyx 459-470). -/
noncomputable def verticalHitSph (v s : CSeg) : Bool :=
  if v.color = s.color then false
  else match meridianLat s.seg v.seg.a.x with
    | none => false
    | some y => decide (((v.seg.a.y : ℝ) ≤ y ∧ (v.seg.b.y : ℝ) ≥ y) ∨ ((v.seg.b.y : ℝ) ≤ y ∧ (v.seg.a.y : ℝ) ≥ y))

/-- The check made for one event (intersection.pyx 452-496), with the tests as parameters.  Two segments are tested whatever
their colours; when a segment ends, it is tested itself against its right neighbour. -/
def checkSph (vert hit : CSeg → CSeg → Bool) (q : List CSeg) (e : Ev) (l r : Option CSeg) : Except Err Bool :=
  if e.kind = 2 then .ok (q.any fun s => vert e.seg s)
  else if e.kind = 0 then
    match Vec.Sweep.leftof q e.seg, Vec.Sweep.rightof q e.seg with
    | .ok l', .ok r' => .ok ((l'.map fun s => hit s e.seg).getD false || (r'.map fun s => hit s e.seg).getD false)
    | .error x, _ => .error x
    | _, .error x => .error x
  else if e.kind = 1 then .ok ((l.bind fun _ => r.map fun t => hit t e.seg).getD false)
  else .ok false

/-- The loop of checks, which stops at the first success. -/
def checkLoopSph (vert hit : CSeg → CSeg → Bool) (q : List CSeg) :
    List (Ev × Option CSeg × Option CSeg) → Except Err Bool
  | [] => .ok false
  | (e, l, r) :: es =>
    match checkSph vert hit q e l r with
    | .error x => .error x
    | .ok true => .ok true
    | .ok false => checkLoopSph vert hit q es

/-- Insertion of the segments that begin (intersection.pyx 431-433), with the insertion as a parameter. -/
def beginLoopSph (ins : ℚ → CSeg → List CSeg → List CSeg) (evs : List Ev) (q : List CSeg) : List CSeg :=
  evs.foldl (fun q (e : Ev) => if e.kind = 0 then ins e.x e.seg q else q) q

/-- The main loop (intersection.pyx 421-498); the ending segments are treated as in the plane (435-450). -/
def sweepSph (ins : ℚ → CSeg → List CSeg → List CSeg) (vert hit : CSeg → CSeg → Bool) :
    List (List Ev) → List CSeg → Except Err Bool
  | [], _ => .ok false
  | evs :: rest, q =>
    match Vec.Sweep.endLoop (Vec.Sweep.endingSegs evs) evs (beginLoopSph ins evs q) with
    | .error x => .error x
    | .ok (q', out) =>
      match checkLoopSph vert hit q' out with
      | .error x => .error x
      | .ok true => .ok true
      | .ok false => sweepSph ins vert hit rest q'

/-- `(x + 180.0) % 360.0 - 180.0` of a longitude (intersection.pyx 375-376, 395-396). -/
def reducePt (p : Pt) : Pt := ⟨Geod.reduceDeg p.x, p.y⟩

/-- The events of both geometries (intersection.pyx 355-412): as in the plane, with longitudes reduced. -/
def queueSph (ringA : Bool) (as : List Pt) (ringB : Bool) (bs : List Pt) : List (List Ev) :=
  Vec.Sweep.batches (Vec.Sweep.eventQueue (Vec.Sweep.colored ringA (as.map reducePt) ringB (bs.map reducePt)))

/-- `intersects_sph` (intersection.pyx 341-498), which `Line.intersects` and `Polygon.intersects` return in a geographical
system when the bounding boxes overlap (geometry.py 690-692). -/
noncomputable def intersectsSph (ringA : Bool) (as : List Pt) (ringB : Bool) (bs : List Pt) : Except Err Bool :=
  sweepSph sweepInsertSph verticalHitSph (fun s r => pairHit s.seg r.seg) (queueSph ringA as ringB bs) []

end Karta.Geod.Cross
