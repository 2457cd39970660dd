import Verif.Py
import Mathlib.Data.Nat.Digits.Defs

/-!
Model of the attribute table written by karta/vector/_shp.py.  Strings are lists of characters.  `up` is Python's `upper` for
a single character, which may give several characters; nothing else is assumed about it.  The OGR library is represented by
the fields and rows handed to it; its own renaming is not modelled.
-/

namespace Karta.Shape
open Karta

abbrev Name := List Char

/-- `str(i)` for a positive integer. -/
def decimal (i : Nat) : Name := (Nat.digits 10 i).reverse.map Nat.digitChar

/-- `str(k)[:10].upper()` (_shp.py 229). -/
def baseName (up : Char → List Char) (k : Name) : Name := (k.take 10).flatMap up

/-- `"{}{}".format(dbase_key[:-len(str(i))], str(i))` (_shp.py 232). -/
def renumber (key : Name) (i : Nat) : Name := key.take (key.length - (decimal i).length) ++ decimal i

/-- `while dbase_key in key_mapping` (_shp.py 230-235), at most `fuel` rounds; `none` when it has not ended by then. -/
def clashLoop (taken : List Name) : Nat → Name → Nat → Option Name
  | 0, key, _ => if key ∈ taken then none else some key
  | fuel + 1, key, i => if key ∈ taken then clashLoop taken fuel (renumber key i) (i + 1) else some key

section
variable {V T : Type _}

/-- A feature's `properties`. -/
abbrev Props (V : Type _) := List (Name × V)

/-- `properties[key]`. -/
def Props.get (p : Props V) (k : Name) : Except Err V :=
  match p.find? (fun kv => kv.1 = k) with
  | some kv => .ok kv.2
  | none => .error .keyError

/-- The loop of `infer_field_type` (_shp.py 251-262) over the first objects: the type of the first value that has one.
`ftype` is `ogr_get_fieldtype` (_shp.py 53-90), which raises TypeError for values it cannot store and may raise other
errors (`[][0]`). -/
def inferLoop (ftype : V → Except Err T) (k : Name) : List (Props V) → Except Err (Option T)
  | [] => .ok none
  | p :: ps =>
    match p.get k with
    | .error e => .error e
    | .ok v =>
      match ftype v with
      | .ok t => .ok (some t)
      | .error .typeError => inferLoop ftype k ps
      | .error e => .error e

/-- `infer_field_type(objs, key, max_iter=100)`. -/
def inferFieldType (ftype : V → Except Err T) (objs : List (Props V)) (k : Name) : Except Err (Option T) :=
  inferLoop ftype k (objs.take 100)

/-- A column created with `CreateField`, and the attribute it is filled from. -/
structure Column (T : Type _) where
  name : Name
  typ : T
  key : Name

/-- The loop over the attributes (_shp.py 224-244).  The outer `none`: a search for a free name has not ended. -/
def columns (up : Char → List Char) (ftype : V → Except Err T) (objs : List (Props V)) (fuel : Nat) :
    List (Column T) → List Name → Option (Except Err (List (Column T)))
  | cols, [] => some (.ok cols)
  | cols, k :: ks =>
    match clashLoop (cols.map (·.name)) fuel (baseName up k) 2 with
    | none => none
    | some name =>
      match inferFieldType ftype objs k with
      | .error e => some (.error e)
      | .ok none => columns up ftype objs fuel cols ks
      | .ok (some t) => columns up ftype objs fuel (cols ++ [⟨name, t, k⟩]) ks

/-- One row (`ogr_write_feature`, _shp.py 264-276): the number of the feature, then the value for every column.  Two columns of
one name would be filled alike: `key_mapping` has one entry for a name. -/
def row (cols : List (Column T)) (i : Nat) (p : Props V) : Except Err (Nat × List (Name × V)) :=
  match cols.mapM (fun c => (p.get (((cols.reverse.find? (fun c' => c'.name = c.name)).map (·.key)).getD c.name)).map (fun v => (c.name, v))) with
  | .error e => .error e
  | .ok vs => .ok (i, vs)

/-- `set.intersection` of the keys, without those that start with `_karta` (_shp.py 221-222), in some order. -/
def IsKeyOrder (objs : List (Props V)) (ks : List Name) : Prop :=
  ks.Nodup ∧ ∀ k, k ∈ ks ↔ (∀ p ∈ objs, k ∈ p.map (·.1)) ∧ ¬ "_karta".toList <+: k

end
end Karta.Shape
