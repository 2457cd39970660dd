import Verif.Py
import Verif.Vec.Basic

/-!
# Nested coordinates

Model of `_flatten` and `_as_nested_lists` (karta/vector/utilities.py 2-22), through which the constructors of geometries take vertices
(karta/vector/geometry.py 336-354) and the exporters give them out (geometry.py 858, 1031-1033, 1303, 1595, 1724; _geojson.py 48-59).

Simplifications: values are numbers, and lists or tuples of values; arrays and coordinate strings are read as lists of tuples.
-/

namespace Karta.Nest
open Karta

/-- A number, or a list or tuple. -/
inductive Val where
  | num (q : ℚ)
  | seq (tuple : Bool) (vs : List Val)

/-- `hasattr(v, "__iter__")`. -/
def Val.iterable : Val → Bool
  | .num _ => false
  | .seq _ _ => true

mutual
/-- What one item adds to the output of `_flatten` (utilities.py 6-10): `item[0]` raises `TypeError` for a number, `IndexError` for an empty
sequence. -/
def flattenItem : Val → Except Err (List Val)
  | .num _ => .error .typeError
  | .seq _ [] => .error .indexError
  | .seq t (v :: vs) => if v.iterable then flatten (v :: vs) else .ok [.seq t (v :: vs)]
/-- `_flatten` (utilities.py 2-11). -/
def flatten : List Val → Except Err (List Val)
  | [] => .ok []
  | v :: vs =>
    match flattenItem v with
    | .error e => .error e
    | .ok a =>
      match flatten vs with
      | .error e => .error e
      | .ok b => .ok (a ++ b)
end

mutual
/-- What one part becomes in `_as_nested_lists` (utilities.py 17-21). -/
def nestItem : Val → Except Err Val
  | .num _ => .error .typeError
  | .seq _ [] => .error .indexError
  | .seq _ (v :: vs) =>
    if v.iterable then
      match nestAll (v :: vs) with
      | .error e => .error e
      | .ok ws => .ok (.seq false ws)
    else .ok (.seq false (v :: vs))
/-- `_as_nested_lists` (utilities.py 13-22). -/
def nestAll : List Val → Except Err (List Val)
  | [] => .ok []
  | v :: vs =>
    match nestItem v with
    | .error e => .error e
    | .ok w =>
      match nestAll vs with
      | .error e => .error e
      | .ok ws => .ok (w :: ws)
end

/-- The vertices of `Line(vertices)`, `Polygon(vertices)` and `Multipoint(vertices)` (geometry.py 346-349), before they are packed into a
coordinate string. -/
def fromVertices (vs : List Val) : Except Err (List Val) := if vs.length = 0 then .ok [] else flatten vs

end Karta.Nest
