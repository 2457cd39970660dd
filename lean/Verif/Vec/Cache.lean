import Verif.Vec.QuadTree

/-!
Model of the attribute cache (decorators.py) and of the methods that use it or that change a
geometry in place: `bbox`, `extent`, `length`, `Line.extend`, `Multipoint.__setitem__`
(geometry.py).  Coordinates are rational; reprojection, the dateline-aware box and the length
are parameters, because they live in other modules or packages.
-/

namespace Karta.Cache
open Karta Karta.Vec

/-- What the cached methods take from the coordinate systems (crs.py 160-310) and from the
numerical kernels. -/
structure World (Crs Len : Type) where
  /-- `CRS.__eq__` -/
  ceq : Crs → Crs → Bool
  /-- `isinstance(crs, GeographicalCRS)` -/
  geo : Crs → Bool
  /-- `self.crs.transform(crs, ...)` -/
  transform : Crs → Crs → List Pt → Except Err (List Pt)
  /-- `_cdateline.bbox` -/
  dateBox : List Pt → Option Box
  /-- body of `length`: planar or geodesic -/
  len : Crs → List Pt → Len

/-- Positional and keyword arguments of a `bbox`/`extent` call; `none` inside is Python's `None`. -/
structure Args (Crs : Type) where
  pos : List (Option Crs)
  kw : Option (Option Crs)

variable {Crs Len : Type}

/-- `==` of two optional coordinate systems (`None == None`, otherwise `CRS.__eq__`). -/
def optEq (w : World Crs Len) : Option Crs → Option Crs → Bool
  | none, none => true
  | some a, some b => w.ceq a b
  | _, _ => false

/-- `==` of two argument tuples. -/
def posEq (w : World Crs Len) : List (Option Crs) → List (Option Crs) → Bool
  | [], [] => true
  | a :: as, b :: bs => optEq w a b && posEq w as bs
  | _, _ => false

/-- `==` of two keyword dictionaries, whose only possible key is `crs`. -/
def kwEq (w : World Crs Len) : Option (Option Crs) → Option (Option Crs) → Bool
  | none, none => true
  | some a, some b => optEq w a b
  | _, _ => false

/-- The comparison made by the decorator (decorators.py 10-11). -/
def argsEq (w : World Crs Len) (a b : Args Crs) : Bool := posEq w a.pos b.pos && kwEq w a.kw b.kw

/-- Python's binding of the arguments of `f(self, crs=None)`. -/
def bind (a : Args Crs) : Except Err (Option Crs) :=
  match a.pos, a.kw with
  | [], none => .ok none
  | [], some c => .ok c
  | [c], none => .ok c
  | _, _ => .error .typeError

/-- The classes with cached methods: `Multipoint` uses `MultiVertexMixin`, `Line` (and `Polygon`)
use `ConnectedMultiVertexMixin`. -/
inductive Kind where
  | multipoint
  | line
  deriving DecidableEq

/-- A geometry object: the attributes `crs`, `_vertices` and `_cache`.  `nd` records that
`_vertices` is a numpy array instead of a `CoordString` (see `extend`).  Rank-2 vertices only. -/
structure Obj (Crs Len : Type) where
  kind : Kind
  crs : Crs
  verts : List Pt
  nd : Bool
  cBbox : Option (Args Crs × Option Box)
  cExt : Option (Args Crs × Option (ℚ × ℚ × ℚ × ℚ))
  cLen : Option Len

/-- A newly built geometry (geometry.py 35-45, 336-353): the cache is empty. -/
def Obj.new (k : Kind) (c : Crs) (vs : List Pt) : Obj Crs Len := ⟨k, c, vs, false, none, none, none⟩

/-- The coordinate string a box is computed from and its system (geometry.py 446-451, 633-638):
reprojected when another system is asked for.  The methods used exist on `CoordString` only. -/
def source (w : World Crs Len) (g : Obj Crs Len) (c : Option Crs) : Except Err (List Pt × Crs) :=
  match c with
  | none => if g.nd then .error .typeError else .ok (g.verts, g.crs)
  | some c =>
    if w.ceq c g.crs then (if g.nd then .error .typeError else .ok (g.verts, g.crs))
    else if g.nd then .error .attributeError
    else match w.transform g.crs c g.verts with
      | .error e => .error e
      | .ok vs => .ok (vs, c)

/-- Body of `MultiVertexMixin.bbox` (geometry.py 429-456). -/
def bodyMulti (w : World Crs Len) (g : Obj Crs Len) (c : Option Crs) : Except Err (Option Box) :=
  match source w g c with
  | .error e => .error e
  | .ok (vs, cr) => .ok (if w.geo cr then w.dateBox vs else bbox vs)

/-- The decorator around `MultiVertexMixin.bbox` (decorators.py 8-17). -/
def callMulti (w : World Crs Len) (g : Obj Crs Len) (a : Args Crs) :
    Except Err (Option Box) × Obj Crs Len :=
  let miss : Except Err (Option Box) × Obj Crs Len :=
    match bind a with
    | .error e => (.error e, g)
    | .ok c => match bodyMulti w g c with
      | .error e => (.error e, g)
      | .ok b => (.ok b, { g with cBbox := some (a, b) })
  match g.cBbox with
  | some (a', b) => if argsEq w a a' then (.ok b, g) else miss
  | none => miss

/-- Body of `ConnectedMultiVertexMixin.bbox` (geometry.py 619-644): for planar systems it calls the
decorated method above, which shares the cache key `"bbox"`. -/
def bodyLine (w : World Crs Len) (g : Obj Crs Len) (c : Option Crs) :
    Except Err (Option Box) × Obj Crs Len :=
  match source w g c with
  | .error e => (.error e, g)
  | .ok (vs, cr) => if w.geo cr then (.ok (w.dateBox vs), g) else callMulti w g ⟨[], some (some cr)⟩

/-- `bbox(*args, **kwargs)` of a geometry (geometry.py 428-456, 618-644; decorators.py 8-17). -/
def callBbox (w : World Crs Len) (g : Obj Crs Len) (a : Args Crs) :
    Except Err (Option Box) × Obj Crs Len :=
  match g.kind with
  | .multipoint => callMulti w g a
  | .line =>
    let miss : Except Err (Option Box) × Obj Crs Len :=
      match bind a with
      | .error e => (.error e, g)
      | .ok c => match bodyLine w g c with
        | (.error e, g') => (.error e, g')
        | (.ok b, g') => (.ok b, { g' with cBbox := some (a, b) })
    match g.cBbox with
    | some (a', b) => if argsEq w a a' then (.ok b, g) else miss
    | none => miss

/-- `(bb[0], bb[2], bb[1], bb[3])` (geometry.py 474); `none` stands for NaNs. -/
def reorder (b : Option Box) : Option (ℚ × ℚ × ℚ × ℚ) := b.map fun b => (b.xmin, b.xmax, b.ymin, b.ymax)

/-- `extent(*args, **kwargs)` (geometry.py 459-474), decorated. -/
def callExtent (w : World Crs Len) (g : Obj Crs Len) (a : Args Crs) :
    Except Err (Option (ℚ × ℚ × ℚ × ℚ)) × Obj Crs Len :=
  let miss : Except Err (Option (ℚ × ℚ × ℚ × ℚ)) × Obj Crs Len :=
    match bind a with
    | .error e => (.error e, g)
    | .ok c => match callBbox w g ⟨[], some c⟩ with
      | (.error e, g') => (.error e, g')
      | (.ok b, g') => (.ok (reorder b), { g' with cExt := some (a, reorder b) })
  match g.cExt with
  | some (a', b) => if argsEq w a a' then (.ok b, g) else miss
  | none => miss

/-- `length` (geometry.py 646-664), a decorated property of lines and polygons; points have no such
attribute.  On a numpy array both branches fail (`CoordString` argument, `asarray`). -/
def callLength (w : World Crs Len) (g : Obj Crs Len) : Except Err Len × Obj Crs Len :=
  if g.kind = .line then
    match g.cLen with
    | some v => (.ok v, g)
    | none => if g.nd then (.error .typeError, g) else
      (.ok (w.len g.crs g.verts), { g with cLen := some (w.len g.crs g.verts) })
  else (.error .attributeError, g)

/-- `Line.extend` (geometry.py 860-873) with a line of the same rank: the vertices become a numpy
array and the cache is emptied.  Indexing vertex 0 of an empty operand raises. -/
def extend (g : Obj Crs Len) (vs : List Pt) : Except Err Unit × Obj Crs Len :=
  if g.kind = .line then
    if g.verts.isEmpty || vs.isEmpty then (.error .indexError, g)
    else (.ok (), { g with verts := g.verts ++ vs, nd := true, cBbox := none, cExt := none, cLen := none })
  else (.error .attributeError, g)

/-- `Multipoint.__setitem__` (geometry.py 1284-1297) with an integer key and a point or coordinate
pair: the vertex is replaced, nothing else.  (The data table is modelled in `Verif.Table`.) -/
def setItem (g : Obj Crs Len) (i : Int) (p : Pt) : Except Err Unit × Obj Crs Len :=
  if g.kind = .multipoint then
    match Py.normIndex g.verts.length i with
    | none => (.error .indexError, g)
    | some n => (.ok (), { g with verts := g.verts.set n p })
  else (.error .typeError, g)

/-- Operations a user can apply to a geometry. -/
inductive Op (Crs : Type) where
  | bbox (a : Args Crs)
  | extent (a : Args Crs)
  | length
  | extend (vs : List Pt)
  | setItem (i : Int) (p : Pt)

/-- What an operation returns. -/
inductive Out (Len : Type) where
  | bbox (r : Except Err (Option Box))
  | extent (r : Except Err (Option (ℚ × ℚ × ℚ × ℚ)))
  | length (r : Except Err Len)
  | unit (r : Except Err Unit)

/-- One operation. -/
def step (w : World Crs Len) (g : Obj Crs Len) : Op Crs → Out Len × Obj Crs Len
  | .bbox a => ((.bbox (callBbox w g a).1), (callBbox w g a).2)
  | .extent a => ((.extent (callExtent w g a).1), (callExtent w g a).2)
  | .length => ((.length (callLength w g).1), (callLength w g).2)
  | .extend vs => ((.unit (extend g vs).1), (extend g vs).2)
  | .setItem i p => ((.unit (setItem g i p).1), (setItem g i p).2)

/-- A history of operations, with what each returned. -/
def run (w : World Crs Len) (g : Obj Crs Len) : List (Op Crs) → List (Out Len) × Obj Crs Len
  | [] => ([], g)
  | o :: os => ((step w g o).1 :: (run w (step w g o).2 os).1, (run w (step w g o).2 os).2)

/-! ### The spatial index of a Multipoint -/

/-- A Multipoint as seen by its searches: current vertices and, with `build_index=True`, the vertices
the quadtree was built from (geometry.py 1266-1267). -/
structure Cloud where
  verts : List Pt
  indexed : Option (List Pt)

/-- `Multipoint(vertices, build_index=...)` (geometry.py 1246-1269). -/
def Cloud.new (vs : List Pt) (build : Bool) : Cloud := ⟨vs, if build then some vs else none⟩

/-- `Multipoint.__setitem__` (geometry.py 1284-1297): the quadtree is not touched. -/
def Cloud.set (c : Cloud) (i : Int) (p : Pt) : Except Err Cloud :=
  match Py.normIndex c.verts.length i with
  | none => .error .indexError
  | some n => .ok { c with verts := c.verts.set n p }

/-- A history of assignments; a failing one changes nothing. -/
def Cloud.sets : Cloud → List (Int × Pt) → Cloud
  | c, [] => c
  | c, (i, p) :: r => Cloud.sets (match c.set i p with | .ok c' => c' | .error _ => c) r

/-- Indices selected by `within_bbox` (geometry.py 1379-1388); the tree has leaf capacity 50.  `none`
when the depth bound `fuel` of the model is exceeded. -/
def Cloud.within (fuel : Nat) (c : Cloud) (q : Box) : Option (List Nat) :=
  match c.indexed with
  | none => some (QT.withinBboxPlain c.verts q)
  | some vs => (QT.build 50 fuel vs).map fun s => QT.withinBboxIndexed s q

end Karta.Cache
