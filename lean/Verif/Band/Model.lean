import Verif.Py

/-!
Model of `/repo/karta/raster/band.py`, classes `SimpleBand` and `CompressedBand`.
-/

namespace Karta.Band
open Karta

variable {α : Type _}

/-- `CompressedBand` (band.py 244-280).  `data` models `_data` together with
`chunkstatus`: `none` is CHUNKUNSET, `some a` is CHUNKSET with contents `a`.
Simplifications: blosc compression is the identity (band.py 282-290), dtype casts are
the identity. -/
structure CBand (α : Type _) where
  /-- `size[0]` -/
  ny : Nat
  /-- `size[1]` -/
  nx : Nat
  /-- `_chunksize[0]` -/
  cy : Nat
  /-- `_chunksize[1]` -/
  cx : Nat
  /-- `_initval` -/
  init : α
  data : List (Option (Arr α))

namespace CBand

/-- `CompressedBand.__init__` (band.py 249-280): `nchunkrows`, `nchunkcols` by ceiling
division, every chunk unset. -/
def new (ny nx cy cx : Nat) (init : α) : CBand α :=
  { ny, nx, cy, cx, init
    data := List.replicate
      ((Py.ceilDiv ny cy).toNat * (Py.ceilDiv nx cx).toNat) none }

/-- Tuple yielded by `_getchunks` (band.py 316-317). -/
structure Chunk where
  num : Int
  yst : Int
  yen : Int
  xst : Int
  xen : Int
  deriving Repr, DecidableEq

/-- `CompressedBand._getchunks` (band.py 292-320). -/
def getchunks (b : CBand α) (yoff xoff ny nx : Int) : List Chunk :=
  let ystart := yoff / b.cy
  let yend := Py.ceilDiv (yoff + ny) b.cy
  let xstart := xoff / b.cx
  let xend := Py.ceilDiv (xoff + nx) b.cx
  let nxchunks := Py.ceilDiv b.nx b.cx
  (Py.range1 ystart yend).flatMap fun i =>
    (Py.range1 xstart xend).map fun j =>
      { num := i * nxchunks + j
        yst := i * b.cy
        yen := min ((i + 1) * b.cy) b.ny
        xst := j * b.cx
        xen := min ((j + 1) * b.cx) b.nx }

/-- "Get from data store" (band.py 330-334): the stored chunk, or a chunk full of the
initial value. -/
def chunkData (b : CBand α) (n : Nat) : Arr α :=
  match b.data[n]? with
  | some (some a) => a
  | _ => ⟨b.cy, b.cx, fun _ _ => b.init⟩

/-- Body of the loop of `CompressedBand.setblock` for one chunk (band.py 328-351). -/
def setChunk (b : CBand α) (yoff xoff : Int) (array : Arr α) (k : Chunk) :
    Except Err (CBand α) :=
  match Py.normIndex b.data.length k.num with
  | none => .error .indexError
  | some n =>
    let chunkdata : Arr α := b.chunkData n
    let cy0 := max 0 (yoff - k.yst)
    let cy1 := min (b.cy : Int) (yoff + array.ny - k.yst)
    let cx0 := max 0 (xoff - k.xst)
    let cx1 := min (b.cx : Int) (xoff + array.nx - k.xst)
    let dy0 := max 0 (k.yst - yoff)
    let dy1 := min (array.ny : Int) (k.yen - yoff)
    let dx0 := max 0 (k.xst - xoff)
    let dx1 := min (array.nx : Int) (k.xen - xoff)
    match chunkdata.assign cy0 cy1 cx0 cx1 (array.slice dy0 dy1 dx0 dx1) with
    | .error e => .error e
    | .ok chunkdata' => .ok { b with data := b.data.set n (some chunkdata') }

/-- Loop of `CompressedBand.setblock` (band.py 328-351).  The band reached is returned
even when an exception interrupts the loop: chunks already stored stay stored. -/
def setLoop (yoff xoff : Int) (array : Arr α) : List Chunk → CBand α → CBand α × Option Err
  | [], b => (b, none)
  | k :: ks, b =>
    match setChunk b yoff xoff array k with
    | .error e => (b, some e)
    | .ok b' => setLoop yoff xoff array ks b'

/-- `CompressedBand.setblock` (band.py 322-352). -/
def setblock (b : CBand α) (yoff xoff : Int) (array : Arr α) : CBand α × Option Err :=
  setLoop yoff xoff array (b.getchunks yoff xoff array.ny array.nx) b

/-- Body of the loop of `CompressedBand.getblock` for one chunk (band.py 359-379).
`result` cells are `none` until written. -/
def getChunk (b : CBand α) (yoff xoff ny nx : Int) (result : Arr (Option α)) (k : Chunk) :
    Except Err (Arr (Option α)) :=
  let oy0 := max 0 (k.yst - yoff)
  let oy1 := min ny (k.yen - yoff)
  let ox0 := max 0 (k.xst - xoff)
  let ox1 := min nx (k.xen - xoff)
  match Py.normIndex b.data.length k.num with
  | none => .error .indexError
  | some n =>
    match b.data[n]? with
    | some (some a) =>
      let cy0 := max yoff k.yst - k.yst
      let cy1 := min (yoff + ny) k.yen - k.yst
      let cx0 := max xoff k.xst - k.xst
      let cx1 := min (xoff + nx) k.xen - k.xst
      result.assign oy0 oy1 ox0 ox1 ((a.slice cy0 cy1 cx0 cx1).map some)
    | _ =>
      match Arr.full (oy1 - oy0) (ox1 - ox0) (some b.init) with
      | .error e => .error e
      | .ok f => result.assign oy0 oy1 ox0 ox1 f

/-- Loop of `CompressedBand.getblock` (band.py 359-379). -/
def getLoop (b : CBand α) (yoff xoff ny nx : Int) :
    List Chunk → Arr (Option α) → Except Err (Arr (Option α))
  | [], r => .ok r
  | k :: ks, r =>
    match b.getChunk yoff xoff ny nx r k with
    | .error e => .error e
    | .ok r' => b.getLoop yoff xoff ny nx ks r'

/-- `CompressedBand.getblock` (band.py 354-381); `np.empty` cells start as `none`, and
`np.empty` with a negative dimension raises `ValueError`. -/
def getblock (b : CBand α) (yoff xoff ny nx : Int) : Except Err (Arr (Option α)) :=
  if 0 ≤ ny ∧ 0 ≤ nx then
    b.getLoop yoff xoff ny nx (b.getchunks yoff xoff ny nx)
      ⟨ny.toNat, nx.toNat, fun _ _ => none⟩
  else .error .valueError

end CBand

/-- `SimpleBand` (band.py 225-242): a plain array.  Simplification: constructed with an
initial value (`initval=None` leaves numpy memory uninitialised). -/
structure SBand (α : Type _) where
  array : Arr α

namespace SBand

/-- `SimpleBand.__init__` (band.py 228-234). -/
def new (ny nx : Nat) (init : α) : SBand α := ⟨⟨ny, nx, fun _ _ => init⟩⟩

/-- `SimpleBand.getblock` (band.py 236-237).  Simplification: numpy returns a view; the
model returns the current contents. -/
def getblock (b : SBand α) (yoff xoff ny nx : Int) : Arr α :=
  b.array.slice yoff (yoff + ny) xoff (xoff + nx)

/-- `SimpleBand.setblock` (band.py 239-242). -/
def setblock (b : SBand α) (yoff xoff : Int) (array : Arr α) : SBand α × Option Err :=
  match b.array.assign yoff (yoff + array.ny) xoff (xoff + array.nx) array with
  | .error e => (b, some e)
  | .ok a => (⟨a⟩, none)

end SBand
end Karta.Band

namespace Karta.Band
open Karta
variable {α : Type _}

/-- A caller storing a sequence of blocks, stopping at the first exception.  Not a
function of the repository: it is the "history" quantified over by the properties. -/
def CBand.run : List (Int × Int × Arr α) → CBand α → CBand α × Option Err
  | [], b => (b, none)
  | (yoff, xoff, a) :: ws, b =>
    match b.setblock yoff xoff a with
    | (b', some e) => (b', some e)
    | (b', none) => CBand.run ws b'

/-- The same caller on a `SimpleBand`. -/
def SBand.run : List (Int × Int × Arr α) → SBand α → SBand α × Option Err
  | [], b => (b, none)
  | (yoff, xoff, a) :: ws, b =>
    match b.setblock yoff xoff a with
    | (b', some e) => (b', some e)
    | (b', none) => SBand.run ws b'

end Karta.Band
