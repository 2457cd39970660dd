import Verif.Table.Model
import Verif.Vec.Basic

/-!
Model of `Table.asjson` and `NumpyAwareJSONEncoder` (karta/vector/table.py 193-198, 233-248), together
with the part of the standard library's `json.dumps` they rely on.
-/

namespace Karta.Tab

/-- The values a table can hold, as far as `json.dumps` distinguishes them.  Finite numbers only: NaN
and the infinities, which Python writes as non-standard tokens, are left out. -/
inductive Scalar where
  | pyBool (b : Bool)
  | pyInt (i : Int)
  /-- `float` and its subclass `np.float64` -/
  | pyFloat (q : ℚ)
  | pyStr (s : String)
  /-- `np.int8`, `np.int16`, `np.int32`, `np.int64` -/
  | npInt (i : Int)
  /-- `np.uint8`, …, `np.uint64` -/
  | npUint (n : Nat)
  /-- `np.float16`, `np.float32`, `np.float128` -/
  | npFloat (q : ℚ)
  | npBool (b : Bool)
  | npComplex (re im : ℚ)
  deriving DecidableEq

/-- JSON documents, after decoding. -/
inductive Json where
  | null
  | bool (b : Bool)
  | num (q : ℚ)
  | str (s : String)
  | arr (l : List Json)
  | obj (l : List (String × Json))

/-- What `json.dumps(…, cls=NumpyAwareJSONEncoder)` writes for one value: Python's own types are
written directly, for others `default` is called (table.py 238-248).  A numpy complex becomes a
`complex`, for which `default` is called again and refuses. -/
def encodeScalar : Scalar → Except Err Json
  | .pyBool b => .ok (.bool b)
  | .pyInt i => .ok (.num i)
  | .pyFloat q => .ok (.num q)
  | .pyStr s => .ok (.str s)
  | .npInt i => .ok (.num i)
  | .npFloat q => .ok (.num q)
  | .npUint _ => .error .typeError
  | .npBool _ => .error .typeError
  | .npComplex _ _ => .error .typeError

/-- `None` is written as `null`. -/
def encodeCell : Option Scalar → Except Err Json
  | none => .ok .null
  | some v => encodeScalar v

/-- A list is written element by element. -/
def encodeList : List (Option Scalar) → Except Err (List Json)
  | [] => .ok []
  | v :: vs =>
    match encodeCell v with
    | .error e => .error e
    | .ok j =>
      match encodeList vs with
      | .error e => .error e
      | .ok js => .ok (j :: js)

/-- The loop of `asjson` (table.py 195-197) and the encoding of its outcome: each field is given the
list `[self.getfield(field)]`.  Simplification: the columns are encoded as they are collected; the
order in which two errors would be found is not observable, as both are exceptions. -/
def encodeFields (t : Table String Scalar) : List String → Except Err (List (String × Json))
  | [] => .ok []
  | f :: fs =>
    match t.getfield f with
    | .error e => .error e
    | .ok col =>
      match encodeList col with
      | .error e => .error e
      | .ok js =>
        match encodeFields t fs with
        | .error e => .error e
        | .ok rest => .ok ((f, .arr [.arr js]) :: rest)

/-- `json.loads(t.asjson())` (table.py 193-198). -/
def Table.asjson (t : Table String Scalar) : Except Err Json :=
  match encodeFields t t.fields with
  | .error e => .error e
  | .ok l => .ok (.obj l)

end Karta.Tab
