import Verif.Table.Model
import Verif.Vec.Basic

/-!
# GPX documents

Model of `karta/vector/_gpx.py` and of the GPX functions of `karta/vector/read.py` (212-236).

Simplifications: tags are written without the namespace, which is the same everywhere; XML text is a tree (`Node`), since writing and parsing it
is done by the standard library, which reads an empty text as `None` (`textOf`).  `str` of a value, `str` of a number, `float` and rounding to six
decimals are parameters.  Dictionaries are association lists; `ord` gives the iteration order of sets of fields.
-/

namespace Karta.Gpx
open Karta Karta.Tab

/-- A dictionary with strings for keys. -/
abbrev Dict (V : Type) := List (String × V)

/-- `Point` (_gpx.py 19). -/
structure Pt (V : Type) where
  lon : ℚ
  lat : ℚ
  props : Dict V
  exts : Dict V

/-- `Trkseg` (_gpx.py 20). -/
structure Seg (V : Type) where
  pts : List (Pt V)
  props : Dict V
  exts : Dict V

/-- `Track` (_gpx.py 21). -/
structure Trk (V : Type) where
  segs : List (Seg V)
  props : Dict V
  exts : Dict V

/-- `Route` (_gpx.py 22). -/
structure Rte (V : Type) where
  pts : List (Pt V)
  props : Dict V
  exts : Dict V

/-- A `GPX` object (_gpx.py 34-61). -/
structure Doc (V : Type) where
  waypts : List (Pt V)
  tracks : List (Trk V)
  routes : List (Rte V)

/-- An XML element: tag, the attributes `lon` and `lat` if it has them, text and children. -/
inductive Node where
  | mk (tag : String) (pos : Option (String × String)) (text : Option String) (children : List Node)

/-- `node.tag`. -/
def Node.tag : Node → String
  | .mk t _ _ _ => t

/-- `node.attrib`. -/
def Node.pos : Node → Option (String × String)
  | .mk _ p _ _ => p

/-- `node.text`. -/
def Node.text : Node → Option String
  | .mk _ _ t _ => t

/-- The children of a node. -/
def Node.children : Node → List Node
  | .mk _ _ _ c => c

/-- `VALID_PROPERTIES` (_gpx.py 27-29). -/
def valid : List String :=
  ["ele", "time", "magvar", "geoidheight", "name", "cmt", "desc", "src", "link", "sym", "type", "fix", "sat", "hdop", "vdop", "pdop",
    "ageofdgpsdata", "dgpsid"]

/-! ### Writing -/

section Write
variable {V : Type} (str : V → String) (num : ℚ → String)

/-- `_dict2gpx` (_gpx.py 89-95): the nodes appended to the parent. -/
def dict2gpx (d : Dict V) : List Node := d.map fun kv => .mk kv.1 none (some (str kv.2)) []

/-- `_extensions2gpx` (_gpx.py 97-101): the node appended to the parent. -/
def extensions2gpx (d : Dict V) : Node := .mk "extensions" none none (dict2gpx str d)

/-- `_build_gpx_wpt` (_gpx.py 103-108). -/
def buildPt (tag : String) (p : Pt V) : Node :=
  .mk tag (some (num p.lon, num p.lat)) none (dict2gpx str p.props ++ [extensions2gpx str p.exts])

/-- The loop body of `_build_gpx_trk` (_gpx.py 116-125). -/
def buildSeg (s : Seg V) : Node :=
  .mk "trkseg" none none (dict2gpx str s.props ++ [extensions2gpx str s.exts] ++ s.pts.map (buildPt str num "trkpt"))

/-- `_build_gpx_trk` (_gpx.py 110-126). -/
def buildTrk (t : Trk V) : Node :=
  .mk "trk" none none (dict2gpx str t.props ++ [extensions2gpx str t.exts] ++ t.segs.map (buildSeg str num))

/-- `_build_gpx_rte` (_gpx.py 128-134). -/
def buildRte (r : Rte V) : Node :=
  .mk "rte" none none (dict2gpx str r.props ++ [extensions2gpx str r.exts] ++ r.pts.map (buildPt str num "rtept"))

/-- `as_string` (_gpx.py 288-305): the tree that is serialised. -/
def asXml (waypts tracks routes : Bool) (d : Doc V) : Node :=
  .mk "gpx" none none
    ((if waypts then d.waypts.map (buildPt str num "wpt") else []) ++ (if tracks then d.tracks.map (buildTrk str num) else []) ++
      if routes then d.routes.map (buildRte str num) else [])

end Write

/-! ### Reading -/

/-- The text of a node after it has been written and parsed: an empty text is none. -/
def textOf : Option String → Option String
  | some s => if s = "" then none else some s
  | none => none

/-- `_readextensions` (_gpx.py 63-71): `node.find` gives the first child with that tag; iterating over `None` is caught. -/
def readExts (n : Node) : Dict (Option String) :=
  match n.children.find? (fun c => c.tag == "extensions") with
  | none => []
  | some e => dictUpdate [] (e.children.map fun c => (c.tag, textOf c.text))

/-- `_readproperties` (_gpx.py 73-80). -/
def readProps (n : Node) (exclude : List String) : Dict (Option String) :=
  dictUpdate [] ((n.children.filter fun c => !exclude.contains c.tag).map fun c => (c.tag, textOf c.text))

section Read
variable (float : String → Option ℚ) (round6 : ℚ → ℚ)

/-- `_readwpt` (_gpx.py 82-87). -/
def readPt (n : Node) : Except Err (Pt (Option String)) :=
  match n.pos with
  | none => .error .keyError
  | some (lo, la) =>
    match float lo, float la with
    | some x, some y => .ok ⟨round6 x, round6 y, readProps n ["extensions"], readExts n⟩
    | _, _ => .error .valueError

/-- `_readwpt` for each of a list of nodes. -/
def readPts : List Node → Except Err (List (Pt (Option String)))
  | [] => .ok []
  | n :: ns =>
    match readPt float round6 n with
    | .error e => .error e
    | .ok p =>
      match readPts ns with
      | .error e => .error e
      | .ok ps => .ok (p :: ps)

/-- `parse_wpt` (_gpx.py 153-158): an XML element has no attribute `properties`. -/
def parseWpt (n : Node) : Except Err Unit :=
  match readPt float round6 n with
  | .error e => .error e
  | .ok _ => .error .attributeError

/-- The loop body of `parse_trk` (_gpx.py 166-171). -/
def readSeg (n : Node) : Except Err (Seg (Option String)) :=
  match readPts float round6 (n.children.filter fun c => c.tag == "trkpt") with
  | .error e => .error e
  | .ok ps => .ok ⟨ps, readProps n ["trkpt"], readExts n⟩

/-- The loop of `parse_trk`. -/
def readSegs : List Node → Except Err (List (Seg (Option String)))
  | [] => .ok []
  | n :: ns =>
    match readSeg float round6 n with
    | .error e => .error e
    | .ok p =>
      match readSegs ns with
      | .error e => .error e
      | .ok ps => .ok (p :: ps)

/-- `parse_trk` (_gpx.py 160-174). -/
def parseTrk (n : Node) : Except Err (Trk (Option String)) :=
  match readSegs float round6 (n.children.filter fun c => c.tag == "trkseg") with
  | .error e => .error e
  | .ok ss => .ok ⟨ss, readProps n ["trkseg"], readExts n⟩

/-- `parse_rte` (_gpx.py 176-181). -/
def parseRte (n : Node) : Except Err (Rte (Option String)) :=
  match readPts float round6 (n.children.filter fun c => c.tag == "rtept") with
  | .error e => .error e
  | .ok ps => .ok ⟨ps, readProps n ["rtept"], readExts n⟩

/-- `parse_trk` for each of a list of nodes. -/
def parseTrks : List Node → Except Err (List (Trk (Option String)))
  | [] => .ok []
  | n :: ns =>
    match parseTrk float round6 n with
    | .error e => .error e
    | .ok p =>
      match parseTrks ns with
      | .error e => .error e
      | .ok ps => .ok (p :: ps)

/-- `parse_rte` for each of a list of nodes. -/
def parseRtes : List Node → Except Err (List (Rte (Option String)))
  | [] => .ok []
  | n :: ns =>
    match parseRte float round6 n with
    | .error e => .error e
    | .ok p =>
      match parseRtes ns with
      | .error e => .error e
      | .ok ps => .ok (p :: ps)

/-- `GPX(f)` (_gpx.py 48-49, 136-151). -/
def fromFile (root : Node) : Except Err (Doc (Option String)) :=
  match root.children.filter fun c => c.tag == "wpt" with
  | w :: _ =>
    match parseWpt float round6 w with
    | .error e => .error e
    | .ok _ => .error .other
  | [] =>
    match parseTrks float round6 (root.children.filter fun c => c.tag == "trk") with
    | .error e => .error e
    | .ok ts =>
      match parseRtes float round6 (root.children.filter fun c => c.tag == "rte") with
      | .error e => .error e
      | .ok rs => .ok ⟨[], ts, rs⟩

/-- `read_gpx_tracks` (read.py 218-236): vertices and properties of the lines. -/
def readTracks (root : Node) : Except Err (List (List (List (ℚ × ℚ) × Dict (Option String)))) :=
  match fromFile float round6 root with
  | .error e => .error e
  | .ok d => .ok (d.tracks.map fun t => t.segs.map fun s => (s.pts.map fun p => (p.lon, p.lat), s.props))

end Read

/-! ### Adding geometries -/

/-- What is added to a document: a line, which has no attribute `data`, or a multipoint with an iteration order of its fields. -/
inductive Src (V : Type) where
  | line (vs : List (List ℚ)) (props : Dict (Option V))
  | multi (vs : List (List ℚ)) (props : Dict (Option V)) (data : Table String V) (ord : List String)

section Add
variable {V : Type} (str : Option V → String) (txt : String → V) (num : ℚ → V)

/-- The division of properties into GPX properties and extensions, as strings (_gpx.py 186-192, 232-236). -/
def sortProps (d : Dict (Option V)) : Dict (Option V) × Dict (Option V) :=
  ((d.filter fun kv => valid.contains kv.1).map fun kv => (kv.1, some (txt (str kv.2))),
    (d.filter fun kv => !valid.contains kv.1).map fun kv => (kv.1, some (txt (str kv.2))))

/-- `add_waypoint` (_gpx.py 183-195) with the vertex and properties of the point. -/
def addWaypoint (d : Doc (Option V)) (v : List ℚ) (props : Dict (Option V)) : Except Err (Doc (Option V)) :=
  match v with
  | x :: y :: _ => .ok { d with waypts := d.waypts ++ [⟨x, y, (sortProps str txt props).1, (sortProps str txt props).2⟩] }
  | _ => .error .indexError

/-- `for key in pt_properties: ptprop[key] = line.d[key][i]; if len(xy) == 3: ptprop["ele"] = xy[2]` (_gpx.py 249-252). -/
def pointProps (t : Table String V) (i : Nat) (z : Option ℚ) : List String → Dict (Option V) → Except Err (Dict (Option V))
  | [], d => .ok d
  | k :: ks, d =>
    match t.getfield k with
    | .error e => .error e
    | .ok c =>
      match c[i]? with
      | none => .error .indexError
      | some a =>
        let d1 := dictUpdate d [(k, a)]
        pointProps t i z ks (match z with
          | some z => dictUpdate d1 [("ele", some (num z))]
          | none => d1)

/-- The third coordinate of a vertex with three (_gpx.py 251-252). -/
def third : List ℚ → Option ℚ
  | [_, _, z] => some z
  | _ => none

/-- The loop over the vertices in `add_track` (_gpx.py 245-256). -/
def trackPoints (t : Table String V) (pp pe : List String) : Nat → List (List ℚ) → Except Err (List (Pt (Option V)))
  | _, [] => .ok []
  | i, xy :: rest =>
    match pointProps num t i (third xy) pp [] with
    | .error e => .error e
    | .ok d =>
      match pointProps num t i none pe [] with
      | .error e => .error e
      | .ok x =>
        match xy with
        | lon :: lat :: _ =>
          match trackPoints t pp pe (i + 1) rest with
          | .error e => .error e
          | .ok ps => .ok (⟨lon, lat, d, x⟩ :: ps)
        | _ => .error .indexError

/-- The loop over the lines in `add_track` (_gpx.py 227-258). -/
def trackSegs : List (Src V) → Except Err (List (Seg (Option V)))
  | [] => .ok []
  | .line _ _ :: _ => .error .attributeError
  | .multi vs props data ord :: rest =>
    match trackPoints num data (ord.filter fun k => valid.contains k) (ord.filter fun k => !valid.contains k) 0 vs with
    | .error e => .error e
    | .ok ps =>
      match trackSegs rest with
      | .error e => .error e
      | .ok ss => .ok (⟨ps, (sortProps str txt props).1, (sortProps str txt props).2⟩ :: ss)

/-- `add_track` (_gpx.py 197-261): the attributes of the track all become properties (219-225). -/
def addTrack (d : Doc (Option V)) (lines : List (Src V)) (attributes : Dict (Option V)) : Except Err (Doc (Option V)) :=
  match trackSegs str txt num lines with
  | .error e => .error e
  | .ok ss => .ok { d with tracks := d.tracks ++ [⟨ss, attributes.map fun kv => (kv.1, some (txt (str kv.2))), []⟩] }

/-- The loop over the vertices in `add_route` (_gpx.py 279-284): `route.data[k]` indexes the rows with a string. -/
def routePoints (fields : List String) : List (List ℚ) → Except Err (List (Pt (Option V)))
  | [] => .ok []
  | xy :: rest =>
    if fields = [] then
      match xy with
      | lon :: lat :: _ =>
        match routePoints fields rest with
        | .error e => .error e
        | .ok ps => .ok (⟨lon, lat, [], []⟩ :: ps)
      | _ => .error .indexError
    else .error .typeError

/-- `add_route` (_gpx.py 263-286). -/
def addRoute (d : Doc (Option V)) : Src V → Except Err (Doc (Option V))
  | .line [] props => .ok { d with routes := d.routes ++ [⟨[], props, []⟩] }
  | .line (_ :: _) _ => .error .attributeError
  | .multi vs props data _ =>
    match routePoints data.fields vs with
    | .error e => .error e
    | .ok ps => .ok { d with routes := d.routes ++ [⟨ps, props, []⟩] }

end Add

end Karta.Gpx
