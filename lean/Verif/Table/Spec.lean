import Verif.Table.Model

/-!
Independent vocabulary for attribute tables: well-formedness and "the value of field `f` in
row `i`".
-/

namespace Karta.Tab
variable {F V : Type _} [DecidableEq F]

/-- Every row has one value per field and field names are distinct. -/
structure Table.WF (t : Table F V) : Prop where
  nodup : t.fields.Nodup
  rows : ∀ r ∈ t.data, r.length = t.fields.length

/-- The value of field `f` in row `i`, if there is such a row and field. -/
def Table.cell (t : Table F V) (i : Nat) (f : F) : Option (Option V) :=
  (t.data[i]?).bind fun row => (t.fields.zip row).lookup f

/-- `ord` lists each element of the set of field names once, in some order. -/
def IsOrder (ord fields : List F) : Prop := ord.Nodup ∧ ∀ f, f ∈ ord ↔ f ∈ fields

end Karta.Tab

namespace Karta.Tab
variable {F V : Type _} [DecidableEq F]

/-- The most recent value assigned to field `f` in a history of column assignments. -/
def lastAssigned (f : F) : List (F × List (Option V)) → Option (List (Option V))
  | [] => none
  | (g, vs) :: rest =>
    match lastAssigned f rest with
    | some w => some w
    | none => if g = f then some vs else none

/-- Running a history of column assignments. -/
def runSets : List (F × List (Option V)) → Table F V → Except Err (Table F V)
  | [], t => .ok t
  | (f, vs) :: rest, t =>
    match t.setfield f vs with
    | .error e => .error e
    | .ok t' => runSets rest t'

/-- The records a merge operand contributes: one function from fields to values per row. -/
def records : Table.Part F V → List (F → Option (Option V))
  | .table t => (List.range t.data.length).map fun i f => t.cell i f
  | .record r => [fun f => r.lookup f]

/-- Tables among merge operands are well formed. -/
def Table.Part.WF : Table.Part F V → Prop
  | .table t => t.WF
  | .record _ => True

/-- `f` names a field of the operand. -/
def Table.Part.has : Table.Part F V → F → Prop
  | .table t, f => f ∈ t.fields
  | .record r, f => f ∈ r.map Prod.fst

/-- The value dictionary `d` gives to key `k`, later entries of `own` winning. -/
def updatedValue {W : Type _} (d own : List (F × W)) (k : F) : Option W :=
  match own.lookup k with
  | some v => some v
  | none => d.lookup k

end Karta.Tab
