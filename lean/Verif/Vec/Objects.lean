import Verif.Vec.Basic

/-!
# Geometry objects as Python values

Model of equality, hashing, indexing, slicing and iteration of `Point`, `Line`, `Polygon` and `Multipoint` (karta/vector/geometry.py
77-106, 336-389, 989-1007, 1038-1042, 1176-1179, 1203-1221, 1248-1282), of the construction of geometries from points (336-354,
1248-1269), of `distances_to`, `nearest_vertex_to` and `any_within_poly` (571-598) and of equality of coordinate systems
(karta/crs.py 123-124, 276-285).

Simplifications: coordinates are rationals or the negative zero, so NaN is left out; dictionaries and tables are values of types
with decidable equality; `CoordString` (package coordstring) is a list of vertices of one length that is indexed like a list.
`Multiline` and `Multipolygon`, whose vertices are lists of coordinate strings, are left out: `hash` needs `_vertices.asarray()`, which
lists do not have.
-/

namespace Karta.Obj
open Karta

/-- A floating point number: zero has two representations. -/
inductive Fl where
  | num (q : ℚ)
  | negZero
  deriving DecidableEq

/-- The number represented; `==` of floats compares these. -/
def Fl.val : Fl → ℚ
  | .num q => q
  | .negZero => 0

/-- The classes of crs.py (155-162, 203-228, 256-274). -/
inductive CrsKind where
  | cartesian | geographical | projected
  deriving DecidableEq

/-- A coordinate system object: `obj` is its identity, `srs` is `_proj.srs`, `init` is `_geod.initstring`. -/
structure Crs where
  obj : Nat
  kind : CrsKind
  srs : String
  init : String
  name : String
  deriving DecidableEq

/-- `a == b` of coordinate systems: only `ProjectedCRS` defines `__eq__` (crs.py 276-282); Python tries the method of the other operand
when the first has none, and compares identities if neither has. -/
def Crs.eq (a b : Crs) : Bool :=
  if a.kind = .projected ∨ b.kind = .projected then
    decide (a.kind ≠ .cartesian ∧ b.kind ≠ .cartesian ∧ a.srs = b.srs ∧ a.init = b.init)
  else decide (a.obj = b.obj)

/-- `_geotype`. -/
inductive Kind where
  | point | line | polygon | multipoint
  deriving DecidableEq

/-- A geometry; a point has one vertex, `subs` are the holes of a polygon and `data` is the table of a multipoint. -/
structure Geo (P D : Type) where
  kind : Kind
  verts : List (List Fl)
  subs : List (List (List Fl))
  props : P
  data : D
  crs : Crs

variable {P D : Type} [DecidableEq P] [DecidableEq D]

/-- The second dimension of the array of vertices. -/
def rank : List (List Fl) → Nat
  | [] => 0
  | v :: _ => v.length

/-- All coordinates are equal. -/
def sameCoords (a b : List (List Fl)) : Bool := decide (a.map (List.map Fl.val) = b.map (List.map Fl.val))

/-- `a == b`: `Point.__eq__` (geometry.py 91-97), `MultiVertexBase.__eq__` (356-364) and `Multipart.__eq__` (1203-1212).
`np.equal` of arrays with the same number of rows and different numbers of columns raises `ValueError`, which only the second method
catches. -/
def Geo.eq (a b : Geo P D) : Except Err Bool :=
  match a.kind with
  | .point =>
    .ok (decide (b.kind = .point) && sameCoords a.verts b.verts && decide (a.props = b.props) && a.crs.eq b.crs)
  | .line | .polygon =>
    .ok (decide (a.kind = b.kind) && decide (a.verts.length = b.verts.length) && sameCoords a.verts b.verts &&
      decide (a.props = b.props) && a.crs.eq b.crs)
  | .multipoint =>
    if a.kind = b.kind ∧ a.verts.length = b.verts.length then
      if rank a.verts = rank b.verts then
        .ok (sameCoords a.verts b.verts && decide (a.data = b.data) && decide (a.props = b.props) && a.crs.eq b.crs)
      else .error .valueError
    else .ok false

/-- Python's hash functions: of strings, of tuples of numbers (a function of the numbers) and of byte strings (of the representations). -/
structure Hashes where
  str : String → Int
  tuple : List ℚ → Int
  bytes : List Fl → Int

/-- `hash(self._geotype)`. -/
def Kind.name : Kind → String
  | .point => "Point"
  | .line => "Line"
  | .polygon => "Polygon"
  | .multipoint => "Multipoint"

/-- `hash(g)` (geometry.py 102-106, 369-373, 1217-1221) with `str(self.crs)` (crs.py 123-124). -/
def Geo.hash (h : Hashes) (g : Geo P D) : Int :=
  let ht := h.str g.kind.name
  let hd := match g.kind with
    | .point => h.tuple ((g.verts.headD []).map Fl.val)
    | _ => h.bytes g.verts.flatten
  let hc := h.str ("<CRS " ++ g.crs.name ++ ">")
  ht + hd * 2 + hd + hc

/-! ### Indexing -/

/-- `self._vertices[key]` of a coordinate string. -/
def vertexAt (vs : List (List Fl)) (i : Int) : Except Err (List Fl) :=
  match Py.index? vs i with
  | some v => .ok v
  | none => .error .indexError

/-- `self._vertices.slice(start, stop, stride)`. -/
def vertexSlice (vs : List (List Fl)) (a b c : Int) : List (List Fl) :=
  (Py.range a b c).filterMap fun i => vs[i.toNat]?

/-- `line[i]` and `polygon[i]` (geometry.py 375-377, 1000-1007): a point with the dictionary of the geometry. -/
def Geo.item (none' : D) (g : Geo P D) (i : Int) : Except Err (Geo P D) :=
  (vertexAt g.verts i).map fun v => ⟨.point, [v], [], g.props, none', g.crs⟩

/-- `line[a:b:c]` (geometry.py 378-381) and `polygon[a:b:c]` (1000-1007): a proper part of a polygon is a line.  `//` is floor division. -/
def Geo.slice (none' : D) (g : Geo P D) (s : Py.Slice) : Except Err (Geo P D) :=
  match s.indices g.verts.length with
  | .error e => .error e
  | .ok (a, b, c) =>
    if g.kind = .polygon ∧ (g.verts.length : Int) ≠ Int.fdiv (b - a) c then
      .ok ⟨.line, vertexSlice g.verts a b c, [], g.props, none', g.crs⟩
    else .ok ⟨g.kind, vertexSlice g.verts a b c, [], g.props, none', g.crs⟩

/-- `[g[i] for i in range(len(g))]`, the iterator of lines and polygons (geometry.py 385-389). -/
def Geo.iter (none' : D) (g : Geo P D) : Except Err (List (Geo P D)) :=
  (List.range g.verts.length).mapM fun (i : Nat) => g.item none' i

/-- `polygon.to_line()` (geometry.py 1176-1179): `_vertices[0]` of an empty polygon raises `IndexError`. -/
def Geo.toLine (none' : D) (g : Geo P D) : Except Err (Geo P D) :=
  (vertexAt g.verts 0).map fun v => ⟨.line, g.verts ++ [v], [], g.props, none', g.crs⟩

/-- `line.to_polygon()` (geometry.py 971-973): the coordinate string is used as it is (340-342). -/
def Geo.toPolygon (none' : D) (g : Geo P D) : Geo P D := ⟨.polygon, g.verts, [], g.props, none', g.crs⟩

/-! ### Geometries from points -/

/-- `Point.vertex(crs)` (geometry.py 135-140); `move` converts the two horizontal coordinates. -/
def Geo.vertexIn (move : Crs → Crs → Fl × Fl → Fl × Fl) (p : Geo P D) (crs : Crs) : List Fl :=
  if crs.eq p.crs then p.verts.headD []
  else
    match p.verts.headD [] with
    | x :: y :: _ => [(move p.crs crs (x, y)).1, (move p.crs crs (x, y)).2]
    | v => v

/-- `Line(points, crs=crs)` and `Polygon(points, crs=crs)` (geometry.py 336-354): the vertices are taken as they are; without `crs` the
coordinate system of the first point is used.  The closing vertex of a ring is left to the coordstring package. -/
def fromPoints (kind : Kind) (none' : D) (p0 : P) (pts : List (Geo P D)) (crs : Option Crs) (dflt : Crs) : Geo P D :=
  ⟨kind, pts.map fun p => p.verts.headD [], [], p0, none',
    match crs with
    | some c => c
    | none =>
      match pts with
      | [] => dflt
      | p :: _ => p.crs⟩

/-- `Multipoint(points, crs=crs)` (geometry.py 1248-1269) without its table: the vertices are converted. -/
def multiFromPoints (move : Crs → Crs → Fl × Fl → Fl × Fl) (none' : D) (p0 : P) (pts : List (Geo P D)) (crs : Option Crs) (dflt : Crs) :
    Geo P D :=
  let c := match crs with
    | some c => c
    | none =>
      match pts with
      | [] => dflt
      | p :: _ => p.crs
  ⟨.multipoint, pts.map fun p => p.vertexIn move c, [], p0, none', c⟩

/-! ### Nearest vertex -/

/-- `np.argmin`: the position of the first smallest entry; an empty array raises `ValueError`. -/
def argmin {K : Type} [LinearOrder K] : List K → Except Err Nat
  | [] => .error .valueError
  | x :: xs => .ok (xs.foldl (fun (s : Nat × K × Nat) y => if y < s.2.1 then (s.2.2, y, s.2.2 + 1) else (s.1, s.2.1, s.2.2 + 1)) (0, x, 1)).1

/-- `distances_to` (geometry.py 571-574): `dist` is `pt.distance`, which may raise. -/
def Geo.distancesTo {K : Type} (none' : D) (dist : Geo P D → Except Err K) (g : Geo P D) : Except Err (List K) :=
  match g.iter none' with
  | .error e => .error e
  | .ok ps => ps.mapM dist

/-- `nearest_vertex_to` (geometry.py 576-591). -/
def Geo.nearestVertex {K : Type} [LinearOrder K] (none' : D) (dist : Geo P D → Except Err K) (g : Geo P D) : Except Err Nat :=
  match g.distancesTo none' dist with
  | .error e => .error e
  | .ok ds => argmin ds

/-- The loop of `any_within_poly` (geometry.py 593-598): stops at the first vertex inside. -/
def anyLoop (inside : Geo P D → Except Err Bool) : List (Geo P D) → Except Err Bool
  | [] => .ok false
  | p :: ps =>
    match inside p with
    | .error e => .error e
    | .ok true => .ok true
    | .ok false => anyLoop inside ps

/-- `any_within_poly` (geometry.py 593-598). -/
def Geo.anyWithin (none' : D) (inside : Geo P D → Except Err Bool) (g : Geo P D) : Except Err Bool :=
  match g.iter none' with
  | .error e => .error e
  | .ok ps => anyLoop inside ps

end Karta.Obj
