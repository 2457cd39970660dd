import Verif.Table.Spec

/-!
# Changing and querying a table

Model of the rest of `Table` and of `Indexer` (karta/vector/table.py 73-126 and 200-231): rows are assigned and deleted in place, and
queried by name, by number and by slice.  A geometry's `d` attribute is such an `Indexer` (geometry.py 1200-1201).
-/

namespace Karta.Tab
open Karta

variable {F V : Type _} [DecidableEq F]

namespace Table

/-- `Table.__getitem__` for an integer (table.py 89-90): the row as a tuple. -/
def item (t : Table F V) (i : Int) : Except Err (List (Option V)) :=
  match Py.index? t.data i with
  | none => .error .indexError
  | some row => .ok row

/-- `Table.__setitem__` for an integer (table.py 92-94).  The tuple is stored without a check. -/
def setItem (t : Table F V) (i : Int) (row : List (Option V)) : Except Err (Table F V) :=
  match Py.normIndex t.data.length i with
  | none => .error .indexError
  | some k => .ok ⟨t.fields, t.data.set k row⟩

/-- `Table.__delitem__` for an integer (table.py 96-97). -/
def delItem (t : Table F V) (i : Int) : Except Err (Table F V) :=
  match Py.normIndex t.data.length i with
  | none => .error .indexError
  | some k => .ok ⟨t.fields, t.data.eraseIdx k⟩

/-- The rows a slice of a list of length `n` selects. -/
def sliceRows (n : Nat) (s : Py.Slice) : Except Err (List Nat) :=
  match s.indices n with
  | .error e => .error e
  | .ok (a, b, c) => .ok ((Py.range a b c).map Int.toNat)

/-- The argument of `Indexer.__getitem__`: a string, an integer, a slice or anything else. -/
inductive IKey (F : Type _) where
  | str (f : F)
  | int (i : Int)
  | slice (s : Py.Slice)
  | other

/-- What an `Indexer` returns: a list of values, a dictionary of values or a dictionary of lists. -/
inductive Answer (F V : Type _) where
  | column (c : List (Option V))
  | record (r : List (F × Option V))
  | columns (cs : List (F × List (Option V)))

/-- `Indexer.__getitem__` (table.py 225-231). -/
def index (t : Table F V) : IKey F → Except Err (Answer F V)
  | .str f => (t.getfield f).map .column
  | .int i => (t.get i).map .record
  | .slice s =>
    match sliceRows t.data.length s with
    | .error e => .error e
    | .ok rows => (t.getSlice rows).map .columns
  | .other => .error .keyError

/-- `Indexer(table)[key]` (table.py 216-231), where a geometry may have no table at all. -/
def indexer : Option (Table F V) → IKey F → Except Err (Answer F V)
  | none, _ => .error .keyError
  | some t, k => t.index k

/-- The changes a table can undergo in place. -/
inductive Op (F V : Type _) where
  | set (f : F) (values : List (Option V))
  | extend (other : Table F V)
  | assign (i : Int) (row : List (Option V))
  | delete (i : Int)

/-- One change (table.py 92-97, 136-166). -/
def apply (t : Table F V) : Op F V → Except Err (Table F V)
  | .set f vs => t.setfield f vs
  | .extend o => t.extend o
  | .assign i row => t.setItem i row
  | .delete i => t.delItem i

/-- A history of changes. -/
def run : List (Op F V) → Table F V → Except Err (Table F V)
  | [], t => .ok t
  | op :: ops, t =>
    match t.apply op with
    | .error e => .error e
    | .ok t' => run ops t'

/-- The inner test of `_validatetypes` for one column (table.py 75): `isinstance(t, d[i])` for each row `d`, where `t` is the type of the
first value.  The arguments are in the wrong order, so that `isinstance` raises TypeError where `d[i]` is not a class; `inst` is its
answer where it is.  A short row raises IndexError. -/
def checkColumn (isClass inst : Option V → Bool) (i : Nat) : List (List (Option V)) → Except Err Unit
  | [] => .ok ()
  | r :: rs =>
    match r[i]? with
    | none => .error .indexError
    | some v => if isClass v then (if inst v then checkColumn isClass inst i rs else .error .typeError) else .error .typeError

/-- The loop of `_validatetypes` over the columns `i`, ..., `i + n - 1`. -/
def checkFrom (isClass inst : Option V → Bool) (rows : List (List (Option V))) : Nat → Nat → Except Err Unit
  | _, 0 => .ok ()
  | i, n + 1 =>
    match checkColumn isClass inst i rows with
    | .error e => .error e
    | .ok () => checkFrom isClass inst rows (i + 1) n

/-- `Table._validatetypes` (table.py 73-78), called for `checktypes=True`; `types` reads the first row (table.py 114-115). -/
def validateTypes (isClass inst : Option V → Bool) (t : Table F V) : Except Err Unit :=
  match t.data with
  | [] => .error .indexError
  | r :: rs => checkFrom isClass inst (r :: rs) 0 r.length

end Table

/-! ### Reference: an ordered list of field names and one record per row -/

/-- A list of records with its field names. -/
structure Records (F V : Type _) where
  fields : List F
  rows : List (F → Option V)

namespace Records

/-- The records of a table. -/
def ofTable (t : Table F V) : Records F V :=
  ⟨t.fields, (List.range t.data.length).map fun i f => (t.cell i f).join⟩

/-- The record with the given values for the given names. -/
def ofValues (fields : List F) (row : List (Option V)) : F → Option V := fun f => ((fields.zip row).lookup f).join

/-- The effect of a change on a list of records. -/
def step (r : Records F V) : Table.Op F V → Records F V
  | .set f vs => ⟨if f ∈ r.fields then r.fields else r.fields ++ [f],
      (r.rows.zip vs).map fun p g => if g = f then p.2 else p.1 g⟩
  | .extend o => ⟨r.fields, r.rows ++ (ofTable o).rows⟩
  | .assign i row =>
    match Py.normIndex r.rows.length i with
    | none => r
    | some k => ⟨r.fields, r.rows.set k (ofValues r.fields row)⟩
  | .delete i =>
    match Py.normIndex r.rows.length i with
    | none => r
    | some k => ⟨r.fields, r.rows.eraseIdx k⟩

/-- Changes that make sense: columns as long as the table, which is not empty, rows with one value per field, and existing rows. -/
def Legal (r : Records F V) : Table.Op F V → Prop
  | .set _ vs => vs.length = r.rows.length ∧ r.rows ≠ []
  | .extend o => o.WF
  | .assign i row => (Py.normIndex r.rows.length i).isSome ∧ row.length = r.fields.length
  | .delete i => (Py.normIndex r.rows.length i).isSome

/-- A history all of whose changes make sense when they are made. -/
def LegalRun : List (Table.Op F V) → Records F V → Prop
  | [], _ => True
  | op :: ops, r => r.Legal op ∧ LegalRun ops (r.step op)

/-- The records after a history. -/
def run (ops : List (Table.Op F V)) (r : Records F V) : Records F V := ops.foldl step r

end Records

end Karta.Tab
