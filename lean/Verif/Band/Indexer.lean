import Verif.Band.Model

/-!
Model of `/repo/karta/raster/band.py`, class `BandIndexer` (lines 40-223), over
`CompressedBand`s (the default band class of `RegularGrid`).
-/

namespace Karta.Band
open Karta

variable {α : Type _}

/-- An n-dimensional numpy array: shape and index function. -/
structure NdArr (α : Type _) where
  shape : List Nat
  get : List Nat → α

/-- Indexing one axis with the integer 0, e.g. `out[:,:,0]` for `k = 2`. -/
def NdArr.takeAxis (A : NdArr α) (k : Nat) : NdArr α :=
  ⟨A.shape.eraseIdx k, fun idx => A.get (idx.insertIdx k 0)⟩

/-- One item of an index tuple: an integer or a slice.  Other key types raise
`TypeError` (band.py 52, 65, 74, 84) and are excluded by the type. -/
inductive Key where
  | int (i : Int)
  | slice (s : Py.Slice)
  deriving DecidableEq, Repr

namespace Key

def isInt : Key → Bool
  | int _ => true
  | slice _ => false

/-- Resolution of a row or column key against an axis of length `n` (band.py 58-74, and
124-138): `(start, end, step)`.  `% 0` raises `ZeroDivisionError`. -/
def resolve (n : Nat) : Key → Except Err (Int × Int × Int)
  | int i => if n = 0 then .error .zeroDivision else .ok (i % (n : Int), i % (n : Int) + 1, 1)
  | slice s => s.indices n

/-- Resolution of the optional band key (band.py 76-84, 140-148). -/
def resolveBands (nb : Nat) : Option Key → Except Err (List Int)
  | none => .ok ((List.range nb).map fun (k : Nat) => (k : Int))
  | some (int i) => if nb = 0 then .error .zeroDivision else .ok [i % (nb : Int)]
  | some (slice s) =>
    match s.indices nb with
    | .error e => .error e
    | .ok (a, b, c) => .ok (Py.range a b c)

end Key

/-- `A[::sy, ::sx]` (band.py 101): positions `range(*slice(None,None,s).indices(n))`. -/
def stepped (A : Arr α) (sy sx : Int) : Arr α :=
  let y0 : Int := if sy < 0 then (A.ny : Int) - 1 else 0
  let y1 : Int := if sy < 0 then -1 else A.ny
  let x0 : Int := if sx < 0 then (A.nx : Int) - 1 else 0
  let x1 : Int := if sx < 0 then -1 else A.nx
  ⟨Py.rangeLen y0 y1 sy, Py.rangeLen x0 x1 sx,
    fun r c => A.get (y0 + r * sy).toNat (x0 + c * sx).toNat⟩

namespace Indexer

/-- Loop of `BandIndexer.__getitem__` (band.py 98-101) filling `out[:,:,i]`, an
`n0 × n1 × len(bands)` array whose cells start uninitialised. -/
def getLoop (bands : List (CBand α)) (n0 n1 : Nat) (y0 ny x0 nx sy sx : Int) :
    Nat → List Int → (Nat → Nat → Nat → Option α) →
    Except Err (Nat → Nat → Nat → Option α)
  | _, [], out => .ok out
  | i, ib :: rest, out =>
    match Py.index? bands ib with
    | none => .error .indexError
    | some band =>
      match band.getblock y0 x0 ny nx with
      | .error e => .error e
      | .ok bv =>
        let v := stepped bv sy sx
        if (v.ny = n0 ∨ v.ny = 1) ∧ (v.nx = n1 ∨ v.nx = 1) then
          getLoop bands n0 n1 y0 ny x0 nx sy sx (i + 1) rest
            (fun r c k => if k = i then
                v.get (if v.ny = 1 then 0 else r) (if v.nx = 1 then 0 else c)
              else out r c k)
        else .error .valueError

/-- `BandIndexer.__getitem__` with a tuple key of two or three items (band.py 52-110). -/
def getitem (bands : List (CBand α)) (ky kx : Key) (kb : Option Key) :
    Except Err (NdArr (Option α)) :=
  match bands with
  | [] => .error .indexError
  | b0 :: _ =>
    match ky.resolve b0.ny with
    | .error e => .error e
    | .ok (ys, ye, ystep) =>
    match kx.resolve b0.nx with
    | .error e => .error e
    | .ok (xs, xe, xstep) =>
    match Key.resolveBands bands.length kb with
    | .error e => .error e
    | .ok bl =>
      let ystart := if ystep < 0 then ye + 1 else ys
      let yend := if ystep < 0 then ys + 1 else ye
      let xstart := if xstep < 0 then xe + 1 else xs
      let xend := if xstep < 0 then xs + 1 else xe
      let s0 := 1 + (yend - ystart - 1) / (ystep.natAbs : Int)
      let s1 := 1 + (xend - xstart - 1) / (xstep.natAbs : Int)
      if s0 < 0 ∨ s1 < 0 then .error .valueError
      else
        match getLoop bands s0.toNat s1.toNat ystart (yend - ystart) xstart (xend - xstart)
            ystep xstep 0 bl (fun _ _ _ => none) with
        | .error e => .error e
        | .ok out =>
          let A : NdArr (Option α) :=
            ⟨[s0.toNat, s1.toNat, bl.length],
              fun | [r, c, k] => out r c k | _ => none⟩
          let A := if (kb.map Key.isInt).getD false then A.takeAxis 2 else A
          let A := if kx.isInt then A.takeAxis 1 else A
          let A := if ky.isInt then A.takeAxis 0 else A
          .ok A

/-- `BandIndexer.__getitem__` with a single slice (band.py 49-50). -/
def getitemSlice (bands : List (CBand α)) (s : Py.Slice) : Except Err (NdArr (Option α)) :=
  getitem bands (.slice s) (.slice .all) (some (.slice .all))

/-- Value assigned through `__setitem__`: `isArray` is `isinstance(value, np.ndarray)`. -/
structure Value (α : Type _) where
  isArray : Bool
  arr : NdArr α

/-- `np.atleast_3d` (numpy): shape of the result and element access. -/
def atleast3d (v : NdArr α) : Option ((Nat × Nat × Nat) × (Nat → Nat → Nat → α)) :=
  match v.shape with
  | [] => some ((1, 1, 1), fun _ _ _ => v.get [])
  | [n] => some ((1, n, 1), fun _ c _ => v.get [c])
  | [m, n] => some ((m, n, 1), fun r c _ => v.get [r, c])
  | [m, n, p] => some ((m, n, p), fun r c k => v.get [r, c, k])
  | _ => none

/-- `val_array` of `__setitem__` (band.py 163-166): reshape of a 1-D array onto a single
pixel, otherwise `np.broadcast_to(np.atleast_3d(value), shape)`.  More than three
dimensions cannot be broadcast to three (`ValueError`). -/
def valArray (v : Value α) (s0 s1 : Int) (nb : Nat) :
    Except Err (Nat → Nat → Nat → α) :=
  if v.isArray ∧ v.arr.shape.length = 1 ∧ s0 = 1 ∧ s1 = 1 then
    if v.arr.shape = [nb] then .ok (fun _ _ k => v.arr.get [k]) else .error .valueError
  else if s0 < 0 ∨ s1 < 0 then .error .valueError
  else
    match atleast3d v.arr with
    | none => .error .valueError
    | some ((d0, d1, d2), g) =>
      if (d0 = s0.toNat ∨ d0 = 1) ∧ (d1 = s1.toNat ∨ d1 = 1) ∧ (d2 = nb ∨ d2 = 1) then
        .ok (fun r c k => g (if d0 = 1 then 0 else r) (if d1 = 1 then 0 else c)
          (if d2 = 1 then 0 else k))
      else .error .valueError

/-- Loop of `BandIndexer.__setitem__` (band.py 168-170). -/
def setLoop (ystart xstart : Int) (n0 n1 : Nat) (val : Nat → Nat → Nat → α) :
    Nat → List Int → List (CBand α) → List (CBand α) × Option Err
  | _, [], bands => (bands, none)
  | i, ib :: rest, bands =>
    match Py.normIndex bands.length ib with
    | none => (bands, some .indexError)
    | some n =>
      match bands[n]? with
      | none => (bands, some .indexError)
      | some band =>
        match band.setblock ystart xstart ⟨n0, n1, fun r c => val r c i⟩ with
        | (band', some e) => (bands.set n band', some e)
        | (band', none) =>
          setLoop ystart xstart n0 n1 val (i + 1) rest (bands.set n band')

/-- `BandIndexer.__setitem__` with a tuple key (band.py 119-172). -/
def setitem (bands : List (CBand α)) (ky kx : Key) (kb : Option Key) (v : Value α) :
    List (CBand α) × Option Err :=
  match bands with
  | [] => (bands, some .indexError)
  | b0 :: _ =>
    match ky.resolve b0.ny with
    | .error e => (bands, some e)
    | .ok (ystart, yend, ystep) =>
    match kx.resolve b0.nx with
    | .error e => (bands, some e)
    | .ok (xstart, xend, xstep) =>
    match Key.resolveBands bands.length kb with
    | .error e => (bands, some e)
    | .ok bl =>
      if ¬ (xstep = ystep ∧ ystep = 1) then (bands, some .notImplemented)
      else
        let s0 := 1 + (yend - ystart - 1) / (ystep.natAbs : Int)
        let s1 := 1 + (xend - xstart - 1) / (xstep.natAbs : Int)
        match valArray v s0 s1 bl.length with
        | .error e => (bands, some e)
        | .ok val => setLoop ystart xstart s0.toNat s1.toNat val 0 bl bands

/-- Positions of the `True` cells of a boolean array in row-major order (numpy boolean
indexing). -/
def maskIdx (m : Arr Bool) : List (Nat × Nat) :=
  (List.range m.ny).flatMap fun y =>
    ((List.range m.nx).filter fun x => m.get y x).map fun x => (y, x)

/-- A mask argument: 2-D, or 3-D given as one 2-D mask per band. -/
inductive Mask where
  | two (m : Arr Bool)
  | three (nb : Nat) (m : Nat → Arr Bool)

/-- `_get_from_array_mask` with a 2-D mask (band.py 174-178): rows are the masked pixels in
row-major order, columns the bands.  A mask of another shape raises `IndexError`. -/
def getMask2 (bands : List (CBand α)) (m : Arr Bool) : Except Err (NdArr (Option α)) :=
  match getitem bands (.slice .all) (.slice .all) (some (.slice .all)) with
  | .error e => .error e
  | .ok A =>
    if A.shape.take 2 = [m.ny, m.nx] then
      .ok ⟨(maskIdx m).length :: A.shape.drop 2, fun
        | [t, k] => match (maskIdx m)[t]? with
          | some (y, x) => A.get [y, x, k]
          | none => none
        | _ => none⟩
    else .error .indexError

/-- Positions selected by a 3-D mask in row-major `(row, column, band)` order. -/
def maskIdx3 (ny nx nb : Nat) (m : Nat → Arr Bool) : List (Nat × Nat × Nat) :=
  (List.range ny).flatMap fun y => (List.range nx).flatMap fun x =>
    ((List.range nb).filter fun k => (m k).get y x).map fun k => (y, x, k)

/-- `_get_from_array_mask` with a 3-D mask (band.py 179-180). -/
def getMask3 (bands : List (CBand α)) (ny nx nb : Nat) (m : Nat → Arr Bool) :
    Except Err (List (Option α)) :=
  match getitem bands (.slice .all) (.slice .all) (some (.slice .all)) with
  | .error e => .error e
  | .ok A =>
    if A.shape = [ny, nx, nb] then
      .ok ((maskIdx3 ny nx nb m).map fun p => A.get [p.1, p.2.1, p.2.2])
    else .error .indexError

/-- Value assigned through a mask: a number, a 1-D array, or a 2-D array with `cols`
columns (band.py 195-198). -/
inductive MValue (α : Type _) where
  | scalar (v : α)
  | vec (v : List α)
  | mat (cols : Nat) (rows : List (List α))

/-- `tmp[mask_] = vals` for a 1-D `vals`: lengths must agree or be one. -/
def maskAssign (tmp : Arr α) (m : Arr Bool) (vals : List α) : Except Err (Arr α) :=
  if m.ny = tmp.ny ∧ m.nx = tmp.nx then
    let idx := maskIdx m
    match vals with
    | [v] => .ok { tmp with get := fun y x => if (y, x) ∈ idx then v else tmp.get y x }
    | _ =>
      if vals.length = idx.length then
        .ok { tmp with
          get := fun y x => if (y, x) ∈ idx then (vals[idx.idxOf (y, x)]?).getD (tmp.get y x)
            else tmp.get y x }
      else .error .valueError
  else .error .indexError

/-- Mask applied to band `i` (band.py 189-192). -/
def bandMask (m : Mask) (i : Nat) : Except Err (Arr Bool) :=
  match m with
  | .two m => .ok m
  | .three nb m => if i < nb then .ok (m i) else .error .indexError

/-- Values applied to band `i` (band.py 195-198). -/
def bandVals (v : MValue α) (i : Nat) : Except Err (List α) :=
  match v with
  | .scalar a => .ok [a]
  | .vec l => .ok l
  | .mat cols rows => if i < cols then .ok (rows.filterMap (·[i]?)) else .error .indexError

/-- Body of the loop of `_set_from_array_mask` for one band (band.py 187-199).  `garb` is
whatever value an uninitialised numpy cell holds. -/
def setMaskBand (garb : α) (m : Mask) (v : MValue α) (i : Nat) (band : CBand α) :
    CBand α × Option Err :=
  match bandMask m i with
  | .error e => (band, some e)
  | .ok mk =>
  match band.getblock 0 0 band.ny band.nx with
  | .error e => (band, some e)
  | .ok tmp =>
  match bandVals v i with
  | .error e => (band, some e)
  | .ok vals =>
  match maskAssign (tmp.map fun o => o.getD garb) mk vals with
  | .error e => (band, some e)
  | .ok tmp' => band.setblock 0 0 tmp'

/-- `_set_from_array_mask` (band.py 184-199). -/
def setMask (garb : α) (m : Mask) (v : MValue α) : Nat → List (CBand α) → List (CBand α) × Option Err
  | _, [] => ([], none)
  | i, b :: bs =>
    match setMaskBand garb m v i b with
    | (b', some e) => (b' :: bs, some e)
    | (b', none) =>
      let (bs', e) := setMask garb m v (i + 1) bs
      (b' :: bs', e)

/-- `np.vstack` of one-row blocks (band.py 207). -/
def vstack (rows : List (Arr (Option α))) : Arr (Option α) :=
  ⟨rows.length, (rows.head?.map Arr.nx).getD 0,
    fun k c => match rows[k]? with | some r => r.get 0 c | none => none⟩

/-- The item yielded by `BandIndexer.__iter__` for row `i` (band.py 201-207). -/
def iterRow (bands : List (CBand α)) (nx : Nat) (i : Nat) : Except Err (Arr (Option α)) :=
  match bands with
  | [b] => b.getblock i 0 1 nx
  | _ =>
    match bands.mapM (fun b => b.getblock i 0 1 nx) with
    | .error e => .error e
    | .ok rows => .ok (vstack rows)

/-- `BandIndexer.__iter__` (band.py 201-207): the items yielded. -/
def iter (bands : List (CBand α)) : Except Err (List (Arr (Option α))) :=
  match bands with
  | [] => .error .indexError
  | b0 :: _ => (List.range b0.ny).mapM (fun i => iterRow bands b0.nx i)

end Indexer
end Karta.Band
