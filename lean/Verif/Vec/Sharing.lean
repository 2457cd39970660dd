import Verif.Table.Model

/-!
# Which geometries share attributes

Model of the dictionaries and tables behind geometry objects as mutable Python objects.  A geometry refers to a dictionary
(`self.properties`, karta/vector/geometry.py 35-42: the argument itself is kept) and, if it is a collection, to a `Table` (`self.data`,
1184-1188: the argument itself is kept if it is a `Table`).  Methods that make a geometry out of another one pass
`properties=self.properties` (227-230, 258, 332, 377-381, 537-539, 560-562, 973, 1005, 1041, 1154, 1179, 1279, 1470, 1586, 1715) or a new
dictionary (1273-1275, 1582-1584, 1707-1713), and `data=self.data` (537) or a new table (560, 1280, 1587, 1716).  `Multiline` and
`Multipolygon` are moved part by part (1467-1470); as their constructors are then given `Line`s or `Polygon`s, they make a new table out of
`data=self.data` and the properties of the parts (1568-1574, 1683-1699), unless there are no parts.

Left out: vertices (C43, C119), and `Table(table)`, which makes a new table on the same list of rows (table.py 36-39).
-/

namespace Karta.Share
open Karta Karta.Tab

variable {F V : Type} [DecidableEq F]

/-- `[f(i) for i in range(k, k + n)]` for a call that may raise. -/
def collect {α : Type _} (f : Nat → Except Err α) (k : Nat) : Nat → Except Err (List α)
  | 0 => .ok []
  | n + 1 =>
    match f k with
    | .error e => .error e
    | .ok a =>
      match collect f (k + 1) n with
      | .error e => .error e
      | .ok r => .ok (a :: r)

/-- The table of a moved `Multiline` or `Multipolygon` with `n > 0` parts (geometry.py 1467-1470, 1571-1573, 1692-1698): `keys` is the
iteration order of the common keys of the parts, `ord` that of the set of fields. -/
def movedTable (t : Table F V) (own : List (F × Option V)) (n : Nat) (keys ord : List F) : Except Err (Table F V) :=
  match collect (fun (i : Nat) => partProperties t own (i : Int)) 0 n with
  | .error e => .error e
  | .ok ps =>
    match mergeProperties ps keys with
    | .error e => .error e
    | .ok d => t.updated (.dict d) [] ord

/-- A geometry: references to its dictionary and its table. -/
structure G where
  props : Nat
  tab : Option Nat
  deriving DecidableEq

/-- All objects.  Geometries are numbered in the order of the calls that make them; a call that raised made none. -/
structure St (F V : Type) where
  geoms : List (Option G)
  dicts : List (List (F × Option V))
  tabs : List (Table F V)

/-- Calls; geometries are given by number. -/
inductive Op (F V : Type) where
  /-- A constructor with a dictionary and, for collections, a table that nothing else refers to. -/
  | create (props : List (F × Option V)) (data : Option (Table F V))
  /-- `line[i]`, `line[a:b]`, `polygon[i]`, `polygon[a:b]`, `line.segments`, `to_line`, `to_polygon`, `centroid`, `walk`, and `shift`, `rotate`
  and `apply_transform` of points, lines and polygons. -/
  | derive (g : Nat)
  /-- `shift`, `rotate` and `apply_transform` of a `Multipoint`. -/
  | move (g : Nat)
  /-- `shift`, `rotate` and `apply_transform` of a `Multiline` or `Multipolygon` with `n` parts. -/
  | moveParts (g n : Nat) (keys ord : List F)
  /-- `collection[a:b]` and the subsets returned by region queries, given by the row numbers selected. -/
  | slice (g : Nat) (rows : List Nat)
  /-- `collection[i]`. -/
  | part (g : Nat) (i : Int)
  /-- `Multipoint(vertices, data=g.data)`, `Multiline(…)`, `Multipolygon(…)`. -/
  | withTable (g : Nat)
  /-- `g.properties[k] = v`. -/
  | setProp (g : Nat) (k : F) (v : Option V)
  /-- `multipoint[i] = point`, attribute part; `ord` is the iteration order of the set of fields. -/
  | setPoint (g : Nat) (i : Nat) (props : List (F × Option V)) (ord : List F)
  /-- `g.data.setfield(f, values)`. -/
  | setField (g : Nat) (f : F) (values : List (Option V))

namespace St

/-- The geometry with a number. -/
def geom (s : St F V) (g : Nat) : Option G := (s.geoms[g]?).bind id

/-- `g.properties`. -/
def props (s : St F V) (g : Nat) : Option (List (F × Option V)) := (s.geom g).bind fun r => s.dicts[r.props]?

/-- `g.data`. -/
def table (s : St F V) (g : Nat) : Option (Table F V) := (s.geom g).bind fun r => r.tab.bind fun t => s.tabs[t]?

/-- Replaces the table of a geometry by the result of a method that may raise. -/
def updateTable (s : St F V) (g : Nat) (f : Table F V → Except Err (Table F V)) : St F V :=
  match s.geom g with
  | some ⟨_, some t⟩ =>
    match s.tabs[t]? with
    | some tb =>
      match f tb with
      | .ok tb' => { s with tabs := s.tabs.set t tb' }
      | .error _ => s
    | none => s
  | _ => s

/-- One call (see the list of lines above). -/
def step (s : St F V) : Op F V → St F V
  | .create p none => { s with geoms := s.geoms ++ [some ⟨s.dicts.length, none⟩], dicts := s.dicts ++ [p] }
  | .create p (some t) =>
    { geoms := s.geoms ++ [some ⟨s.dicts.length, some s.tabs.length⟩], dicts := s.dicts ++ [p], tabs := s.tabs ++ [t] }
  | .derive g => { s with geoms := s.geoms ++ [(s.geom g).map fun r => ⟨r.props, none⟩] }
  | .move g => { s with geoms := s.geoms ++ [s.geom g] }
  | .moveParts g n keys ord =>
    if n = 0 then { s with geoms := s.geoms ++ [s.geom g] }
    else
      match s.geom g, s.props g, s.table g with
      | some r, some own, some t =>
        match movedTable t own n keys ord with
        | .ok t' => { s with geoms := s.geoms ++ [some ⟨r.props, some s.tabs.length⟩], tabs := s.tabs ++ [t'] }
        | .error _ => { s with geoms := s.geoms ++ [none] }
      | _, _, _ => { s with geoms := s.geoms ++ [none] }
  | .slice g rows =>
    match s.geom g, s.table g with
    | some r, some t =>
      match sliceTable t rows with
      | .ok t' => { s with geoms := s.geoms ++ [some ⟨r.props, some s.tabs.length⟩], tabs := s.tabs ++ [t'] }
      | .error _ => { s with geoms := s.geoms ++ [none] }
    | _, _ => { s with geoms := s.geoms ++ [none] }
  | .part g i =>
    match s.props g, s.table g with
    | some own, some t =>
      match partProperties t own i with
      | .ok p => { s with geoms := s.geoms ++ [some ⟨s.dicts.length, none⟩], dicts := s.dicts ++ [p] }
      | .error _ => { s with geoms := s.geoms ++ [none] }
    | _, _ => { s with geoms := s.geoms ++ [none] }
  | .withTable g =>
    match s.geom g with
    | some ⟨_, some t⟩ => { s with geoms := s.geoms ++ [some ⟨s.dicts.length, some t⟩], dicts := s.dicts ++ [[]] }
    | _ => { s with geoms := s.geoms ++ [none] }
  | .setProp g k v =>
    match s.geom g with
    | some r => { s with dicts := s.dicts.modify r.props fun d => dictUpdate d [(k, v)] }
    | none => s
  | .setPoint g i p ord => s.updateTable g fun t => Tab.setPoint t i p ord
  | .setField g f vs => s.updateTable g fun t => t.setfield f vs

/-- No objects. -/
def empty : St F V := ⟨[], [], []⟩

/-- A history of calls. -/
def run (ops : List (Op F V)) : St F V := ops.foldl step empty

end St

end Karta.Share
