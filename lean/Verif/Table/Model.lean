import Verif.Py

/-!
Model of `/repo/karta/vector/table.py`, `merge_properties` and `_subset` of
`/repo/karta/vector/geometry.py`, and the property partition of
`/repo/karta/vector/read.py`.

Dictionaries are association lists in insertion order.  A cell is `Option V`, Python's
`None` being `none`.  The iteration order of a Python `set` is not specified: it is an
explicit argument wherever the code iterates over one.
-/

namespace Karta.Tab
open Karta

variable {F V : Type _} [DecidableEq F]

/-- `Table` (table.py 7-71): `_fields` and `_data`. -/
structure Table (F V : Type _) where
  fields : List F
  data : List (List (Option V))

namespace Table

/-- `Table(size=n, fields=fields)` (table.py 27-34): rows are empty tuples. -/
def ofSize (fields : List F) (n : Nat) : Table F V := ⟨fields, List.replicate n []⟩

/-- Length of `zip(*cols)`: that of the shortest column. -/
def minLen : List (List (Option V)) → Nat
  | [] => 0
  | [c] => c.length
  | c :: cs => min c.length (minLen cs)

/-- `Table(data=dict of sequences)` (table.py 40-51). -/
def ofColumns (d : List (F × List (Option V))) : Table F V :=
  ⟨d.map Prod.fst,
    (List.range (minLen (d.map Prod.snd))).map fun i => d.map fun p => (p.2[i]?).getD none⟩

/-- `Table(data=dict of scalars)` (table.py 52-54). -/
def ofScalars (d : List (F × Option V)) : Table F V :=
  ⟨d.map Prod.fst, d.map fun p => [p.2]⟩

/-- `Table(data=rows, fields=fields)` (table.py 62-67): only the first row is checked. -/
def ofRows (rows : List (List (Option V))) (fields : List F) : Except Err (Table F V) :=
  match rows with
  | [] => .ok ⟨fields, rows⟩
  | r :: _ => if r.length ≠ fields.length then .error .valueError else .ok ⟨fields, rows⟩

/-- `Table.__len__` (table.py 99-100). -/
def len (t : Table F V) : Nat := t.data.length

/-- `[d[i] for d in rows]`; a short row raises `IndexError`. -/
def column (i : Nat) : List (List (Option V)) → Except Err (List (Option V))
  | [] => .ok []
  | r :: rs =>
    match r[i]? with
    | none => .error .indexError
    | some v =>
      match column i rs with
      | .error e => .error e
      | .ok vs => .ok (v :: vs)

/-- `Table.getfield` (table.py 128-134). -/
def getfield (t : Table F V) (f : F) : Except Err (List (Option V)) :=
  if f ∈ t.fields then column (t.fields.idxOf f) t.data else .error .keyError

/-- `tuplemut` (table.py 250-254); assignment past the end raises `IndexError`. -/
def tuplemut (row : List (Option V)) (v : Option V) (i : Nat) : Except Err (List (Option V)) :=
  if i < row.length then .ok (row.set i v) else .error .indexError

/-- `tupleinsert` (table.py 256-259). -/
def tupleinsert {α : Type _} (row : List α) (v : α) (i : Nat) : List α :=
  row.take i ++ [v] ++ row.drop i

/-- `[tuplemut(row, v, idx) for row, v in zip(data, values)]`. -/
def mutAll (i : Nat) : List (List (Option V) × Option V) → Except Err (List (List (Option V)))
  | [] => .ok []
  | (r, v) :: rest =>
    match tuplemut r v i with
    | .error e => .error e
    | .ok r' =>
      match mutAll i rest with
      | .error e => .error e
      | .ok rs => .ok (r' :: rs)

/-- `Table.setfield` (table.py 136-150); the table after the call. -/
def setfield (t : Table F V) (f : F) (values : List (Option V)) : Except Err (Table F V) :=
  if t.len ≠ 0 ∧ values.length ≠ t.len then .error .valueError
  else if t.len = 0 then .ok ⟨[f], values.map fun v => [v]⟩
  else if f ∈ t.fields then
    match mutAll (t.fields.idxOf f) (t.data.zip values) with
    | .error e => .error e
    | .ok d => .ok ⟨t.fields, d⟩
  else
    .ok ⟨tupleinsert t.fields f t.fields.length,
      (t.data.zip values).map fun p => tupleinsert p.1 p.2 t.fields.length⟩

/-- `Table.get(i)` for an integer (table.py 117-119, 125-126): the row as a dictionary. -/
def get (t : Table F V) (i : Int) : Except Err (List (F × Option V)) :=
  match Py.index? t.data i with
  | none => .error .indexError
  | some row => if row.length < t.fields.length then .error .indexError
      else .ok (t.fields.zip row)

/-- One column per field of the selected rows (table.py 121-124). -/
def columnsOf (rows : List (List (Option V))) : List F → Nat → Except Err (List (F × List (Option V)))
  | [], _ => .ok []
  | f :: fs, j =>
    match column j rows with
    | .error e => .error e
    | .ok c =>
      match columnsOf rows fs (j + 1) with
      | .error e => .error e
      | .ok rest => .ok ((f, c) :: rest)

/-- `Table.get(slice)` (table.py 119-124), the slice given by the row numbers it selects. -/
def getSlice (t : Table F V) (rows : List Nat) : Except Err (List (F × List (Option V))) :=
  columnsOf (rows.filterMap fun i => t.data[i]?) t.fields 0

/-- Row appended by `extend` for one row of the other table (table.py 156-166). -/
def extendRow (sf of' : List F) (row : List (Option V)) : Except Err (List (Option V)) :=
  match sf with
  | [] => .ok []
  | f :: fs =>
    match extendRow fs of' row with
    | .error e => .error e
    | .ok rest =>
      if f ∈ of' then
        match row[of'.idxOf f]? with
        | none => .error .indexError
        | some v => .ok (v :: rest)
      else .ok (none :: rest)

/-- Loop of `extend` (table.py 163-166). -/
def extendRows (sf of' : List F) : List (List (Option V)) → Except Err (List (List (Option V)))
  | [] => .ok []
  | r :: rs =>
    match extendRow sf of' r with
    | .error e => .error e
    | .ok r' =>
      match extendRows sf of' rs with
      | .error e => .error e
      | .ok rs' => .ok (r' :: rs')

/-- `Table.extend` (table.py 152-166); the table after the call. -/
def extend (t o : Table F V) : Except Err (Table F V) :=
  match extendRows t.fields o.fields o.data with
  | .error e => .error e
  | .ok rows => .ok ⟨t.fields, t.data ++ rows⟩

/-- Argument of `updated`/`merge`: a table or a dictionary. -/
inductive Mapping (F V : Type _) where
  | table (t : Table F V)
  | dict (items : List (F × List (Option V)))

/-- First loop of `updated` for a table argument (table.py 177-178); `ord` is the iteration
order of the set `mapping.fields`. -/
def setFromTable (m : Table F V) : List F → Table F V → Except Err (Table F V)
  | [], nt => .ok nt
  | f :: fs, nt =>
    match m.getfield f with
    | .error e => .error e
    | .ok vs =>
      match nt.setfield f vs with
      | .error e => .error e
      | .ok nt' => setFromTable m fs nt'

/-- First loop of `updated` for a dictionary argument (table.py 182-185). -/
def setFromDict (length : Nat) : List (F × List (Option V)) → Table F V → Except Err (Table F V)
  | [], nt => .ok nt
  | (f, vs) :: rest, nt =>
    if length ≠ 0 ∧ vs.length ≠ length then .error .valueError
    else
      match nt.setfield f vs with
      | .error e => .error e
      | .ok nt' => setFromDict length rest nt'

/-- Second loop of `updated` (table.py 187-189); `ord` is the iteration order of the set
`self.fields`. -/
def setOwn (t : Table F V) : List F → Table F V → Except Err (Table F V)
  | [], nt => .ok nt
  | f :: fs, nt =>
    if f ∉ nt.fields then
      match t.getfield f with
      | .error e => .error e
      | .ok vs =>
        match nt.setfield f vs with
        | .error e => .error e
        | .ok nt' => setOwn t fs nt'
    else setOwn t fs nt

/-- `Table.updated` (table.py 168-191); `ordM`, `ordS` are the set iteration orders. -/
def updated (t : Table F V) (m : Mapping F V) (ordM ordS : List F) : Except Err (Table F V) :=
  let nt : Table F V := ofSize [] t.len
  let step : Except Err (Table F V) := match m with
    | .table o => if t.len ≠ 0 ∧ o.len ≠ t.len then .error .valueError
        else setFromTable o ordM nt
    | .dict items => setFromDict t.len items nt
  match step with
  | .error e => .error e
  | .ok nt' => setOwn t ordS nt'

/-- One operand of `merge`: a table, or a dictionary of single values (a record). -/
inductive Part (F V : Type _) where
  | table (t : Table F V)
  | record (r : List (F × Option V))

/-- `m.fields` / `set(m.keys())` (table.py 264-266). -/
def Part.keys : Part F V → List F
  | .table t => t.fields
  | .record r => r.map Prod.fst

/-- Loop of `merge` (table.py 268-272). -/
def mergeLoop : List (Part F V) → Table F V → Except Err (Table F V)
  | [], t => .ok t
  | .table o :: ps, t =>
    match t.extend o with
    | .error e => .error e
    | .ok t' => mergeLoop ps t'
  | .record r :: ps, t =>
    mergeLoop ps ⟨t.fields, t.data ++ [t.fields.map fun k => (r.lookup k).getD none]⟩

/-- `merge` (table.py 261-274); `keys` is the intersection set in its iteration order.
`set.intersection()` of nothing raises `TypeError`. -/
def merge (parts : List (Part F V)) (keys : List F) : Except Err (Table F V) :=
  if parts = [] then .error .typeError else mergeLoop parts (ofSize keys 0)

end Table

/-- `[p[key] for p in prop_sets]`; a missing key raises `KeyError`. -/
def lookupAll {W : Type _} (k : F) : List (List (F × W)) → Except Err (List W)
  | [] => .ok []
  | p :: ps =>
    match p.lookup k with
    | none => .error .keyError
    | some v =>
      match lookupAll k ps with
      | .error e => .error e
      | .ok vs => .ok (v :: vs)

/-- Loop of `merge_properties` (geometry.py 1828-1831). -/
def joinLoop {W : Type _} (sets : List (List (F × W))) : List F → Except Err (List (F × List W))
  | [] => .ok []
  | k :: ks =>
    match lookupAll k sets with
    | .error e => .error e
    | .ok vs =>
      match joinLoop sets ks with
      | .error e => .error e
      | .ok rest => .ok ((k, vs) :: rest)

/-- `merge_properties` (geometry.py 1825-1831); `keys` is the intersection set in its
iteration order.  `set.intersection()` of nothing raises `TypeError`. -/
def mergeProperties {W : Type _} (sets : List (List (F × W))) (keys : List F) :
    Except Err (List (F × List W)) :=
  if sets.length = 0 then .error .typeError else joinLoop sets keys

/-- `[xs[i] for i in idxs]`; a bad index raises `IndexError`. -/
def pick {T : Type _} (xs : List T) : List Nat → Except Err (List T)
  | [] => .ok []
  | i :: is =>
    match xs[i]? with
    | none => .error .indexError
    | some x =>
      match pick xs is with
      | .error e => .error e
      | .ok r => .ok (x :: r)

/-- `MultiVertexMixin._subset` (geometry.py 555-562): selected vertices, and a table of the
selected rows built with `fields=self.data.fields`, a set whose iteration order is `ord`. -/
def subset {T : Type _} (pts : List T) (t : Table F V) (idxs : List Nat) (ord : List F) :
    Except Err (List T × Table F V) :=
  match pick pts idxs with
  | .error e => .error e
  | .ok vs =>
    match pick t.data idxs with
    | .error e => .error e
    | .ok rows =>
      match Table.ofRows rows ord with
      | .error e => .error e
      | .ok t' => .ok (vs, t')

/-- A value of the dictionary given as `data`: a sequence, or a string (which has a length and
can be iterated, but is not treated as a sequence by `Table.__init__`). -/
inductive Col (V : Type _) where
  | seq (vs : List (Option V))
  | str (whole : Option V) (chars : List (Option V))

def Col.items : Col V → List (Option V)
  | .seq vs => vs
  | .str _ cs => cs

/-- The whole value, where the code stores it as one cell; a sequence is stored as itself,
abstracted to `none` here. -/
def Col.whole : Col V → Option V
  | .seq _ => none
  | .str w _ => w

/-- `Table(data=dict)` (table.py 40-54): the type of the first value decides. -/
def Table.ofDict : List (F × Col V) → Table F V
  | [] => ⟨[], []⟩
  | (f, .seq vs) :: rest =>
    .ofColumns ((f, vs) :: rest.map fun p => (p.1, p.2.items))
  | (f, .str w _) :: rest => .ofScalars ((f, w) :: rest.map fun p => (p.1, p.2.whole))

/-- The `data` argument of a multipart constructor. -/
inductive DataArg (F V : Type _) where
  | none
  | table (t : Table F V)
  | dict (d : List (F × Col V))

/-- `Multipart.__init__` (geometry.py 1184-1197): the attribute table for `n` parts. -/
def multipartTable (n : Nat) : DataArg F V → Except Err (Table F V)
  | .table t => .ok t
  | .none => .ok (.ofSize [] n)
  | .dict d =>
    if d.length = 0 then .ok (.ofSize [] n)
    else if d.any (fun p => p.2.items.length != n) then .error .valueError
    else .ok (.ofDict d)

/-- Attribute table of `geometry[slice]` (geometry.py 1276-1280, 1585-1587, 1714-1716), the
slice given by the row numbers it selects. -/
def sliceTable (t : Table F V) (rows : List Nat) : Except Err (Table F V) :=
  match t.getSlice rows with
  | .error e => .error e
  | .ok d => multipartTable rows.length (.dict (d.map fun p => (p.1, Col.seq p.2)))

/-- `Multipoint`/`Multiline`/`Multipolygon` built from parts carrying `properties` and no
`data` (geometry.py 1256-1265, 1565-1574, 1683-1699); `keys` is the iteration order of the
set of common keys. -/
def tableFromParts (props : List (List (F × Option V))) (keys : List F) :
    Except Err (Table F V) :=
  match mergeProperties props keys with
  | .error e => .error e
  | .ok d => (Table.ofDict ([] : List (F × Col V))).updated (.dict d) [] []

/-- `dict.update` on association lists. -/
def dictUpdate {W : Type _} (d : List (F × W)) : List (F × W) → List (F × W)
  | [] => d
  | (k, v) :: rest =>
    if k ∈ d.map Prod.fst then dictUpdate (d.map fun p => if p.1 = k then (k, v) else p) rest
    else dictUpdate (d ++ [(k, v)]) rest

/-- Attributes of the `i`th part of a multipart geometry (geometry.py 1272-1275, 1581-1584,
1706-1708): its row, updated with the collection's own properties. -/
def partProperties (t : Table F V) (own : List (F × Option V)) (i : Int) :
    Except Err (List (F × Option V)) :=
  match t.get i with
  | .error e => .error e
  | .ok p => .ok (dictUpdate p own)

/-- `Multipoint.__setitem__` with a `Point` (geometry.py 1285-1291), attribute part: the new
row lists the point's properties in the iteration order `ord` of the set of fields. -/
def setPoint (t : Table F V) (i : Nat) (props : List (F × Option V)) (ord : List F) :
    Except Err (Table F V) :=
  if i < t.len then .ok ⟨t.fields, t.data.set i (ord.map fun f => (props.lookup f).getD none)⟩
  else .error .indexError

/-- A GeoJSON property value, as far as `convert_feature` looks at it: `len(v)` is `n`, or
`len` raises `TypeError` (`none`). -/
structure PropVal (W : Type _) where
  len : Option Nat
  val : W

/-- `convert_feature` in `read_geojson` (read.py 103-117) for a multipart geometry with `n`
parts: `(data, properties)`. -/
def partition {W : Type _} (n : Nat) : List (F × PropVal W) →
    List (F × PropVal W) × List (F × PropVal W)
  | [] => ([], [])
  | (k, v) :: rest =>
    let (d, p) := partition n rest
    match v.len with
    | some m => if m = n then ((k, v) :: d, p) else (d, (k, v) :: p)
    | none => (d, (k, v) :: p)

end Karta.Tab
