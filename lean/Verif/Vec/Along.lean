import Verif.Geod.Plane

/-!
# Positions along a line

Model of `Line.cumulength`, `Line.to_points`, `Line.to_npoints` and `Line.displacement` (karta/vector/geometry.py 875-971) in a
planar coordinate system, on lines with two coordinates per vertex, over the reals.  `while` loops take a bound on the number of
rounds; the theorems hold for all sufficiently large bounds.  Rounding is not modelled.
-/

namespace Karta.Along
open Karta Karta.Geod

/-- A flat vertex. -/
def pt (p : ℝ × ℝ) : Vtx := ⟨p.1, p.2, none⟩

/-- `Point.distance` of flat points. -/
noncomputable def dist (p q : ℝ × ℝ) : ℝ := distance (pt p) (pt q)

/-- `Point.walk` along `Point.azimuth` (geometry.py 154-177, 232-253): the position reached from `p` by going `d` in the direction
from `a` to `b`.  Where the azimuth is NaN the new coordinates are NaN, shown as `none`. -/
noncomputable def walkAlong (p : ℝ × ℝ) (d : ℝ) (a b : ℝ × ℝ) : Option (ℝ × ℝ) :=
  (azimuth (pt a) (pt b)).map fun az => ((walk (pt p) d az).x, (walk (pt p) d az).y)

/-- The loop of `cumulength` (geometry.py 884-888). -/
noncomputable def cumulengthGo (pta : ℝ × ℝ) (last : ℝ) : List (ℝ × ℝ) → List ℝ
  | [] => []
  | ptb :: r => (dist pta ptb + last) :: cumulengthGo ptb (dist pta ptb + last) r

/-- `Line.cumulength` (geometry.py 875-889). -/
noncomputable def cumulength : List (ℝ × ℝ) → Except Err (List ℝ)
  | [] => .error .indexError
  | p :: r => .ok (0 :: cumulengthGo p 0 r)

/-- `Line.displacement` (geometry.py 964-971). -/
noncomputable def displacement : List (ℝ × ℝ) → Except Err ℝ
  | [] => .error .indexError
  | p :: r => .ok (dist p ((p :: r).getLast (by simp)))

/-- Variables of `to_points` that live from segment to segment. -/
structure Walker where
  remainder : ℝ
  pt0 : ℝ × ℝ
  vertices : List (ℝ × ℝ)

open Classical in
/-- The inner loop of `to_points` (geometry.py 906-917) on the segment from `a` to `b`. -/
noncomputable def segLoop (dx : ℝ) (a b : ℝ × ℝ) : Nat → ℝ → Walker → Option Walker
  | 0, _, _ => none
  | fuel + 1, pos, w =>
    if pos < dist a b then
      if dx ≤ dist w.pt0 b then
        match walkAlong w.pt0 (dx - w.remainder) a b with
        | none => none
        | some pt1 => segLoop dx a b fuel (pos + (dx - w.remainder)) ⟨0, pt1, w.vertices ++ [pt1]⟩
      else segLoop dx a b fuel (dist a b) ⟨dist w.pt0 b, b, w.vertices⟩
    else some w

/-- The outer loop of `to_points` (geometry.py 902-917). -/
noncomputable def lineLoop (dx : ℝ) (fuel : Nat) : List (ℝ × ℝ) → Walker → Option Walker
  | a :: b :: r, w =>
    match segLoop dx a b fuel 0 w with
    | none => none
    | some w' => lineLoop dx fuel (b :: r) w'
  | _, w => some w

/-- `Line.to_points` (geometry.py 891-918): the coordinates of the points. -/
noncomputable def toPoints (dx : ℝ) (fuel : Nat) : List (ℝ × ℝ) → Option (List (ℝ × ℝ))
  | [] => none
  | p :: r => (lineLoop dx fuel (p :: r) ⟨0, p, [p]⟩).map Walker.vertices

/-- Variables of `to_npoints`.  `segA` and `segB` are the ends of the current segment, `rest` the vertices that follow. -/
structure Stepper where
  x : ℝ
  pos : ℝ × ℝ
  segA : ℝ × ℝ
  segB : ℝ × ℝ
  rest : List (ℝ × ℝ)
  segRemaining : ℝ
  stepRemaining : ℝ
  vertices : List (ℝ × ℝ)

open Classical in
/-- The loop of `to_npoints` (geometry.py 938-956). -/
noncomputable def stepLoop (total step : ℝ) : Nat → Stepper → Option Stepper
  | 0, _ => none
  | fuel + 1, s =>
    if s.x < total - 1 / 10 ^ 8 then
      if s.stepRemaining ≤ s.segRemaining then
        match walkAlong s.pos s.stepRemaining s.segA s.segB with
        | none => none
        | some p => stepLoop total step fuel
            { s with x := s.x + s.stepRemaining, pos := p, segA := p, segRemaining := s.segRemaining - s.stepRemaining,
                     stepRemaining := step, vertices := s.vertices ++ [p] }
      else
        match s.rest with
        | c :: r => stepLoop total step fuel
            { s with x := s.x + s.segRemaining, pos := s.segB, stepRemaining := s.stepRemaining - s.segRemaining,
                     segA := s.segB, segB := c, rest := r, segRemaining := dist s.segB c }
        | [] => stepLoop total step fuel
            { s with x := s.x + s.segRemaining, pos := s.segB, stepRemaining := s.stepRemaining - s.segRemaining,
                     segRemaining := dist s.segA s.segB }
    else some s

/-- `Line.to_npoints` (geometry.py 920-960) for `n` other than 1, which divides by zero.  `none` also for lines with fewer than
two vertices, which have no segment. -/
noncomputable def toNPoints (n : Nat) (fuel : Nat) : List (ℝ × ℝ) → Option (List (ℝ × ℝ))
  | a :: b :: r =>
    let total := (0 :: cumulengthGo a 0 (b :: r)).getLast (by simp)
    let step := total / ((n : ℝ) - 1)
    match stepLoop total step fuel ⟨0, a, a, b, r, dist a b, step, [a]⟩ with
    | none => none
    | some s => some (if s.vertices.length + 1 = n then s.vertices ++ [s.segB] else s.vertices)
  | _ => none

end Karta.Along
