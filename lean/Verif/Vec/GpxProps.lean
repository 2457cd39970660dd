import Verif.Vec.Gpx
import Verif.Vec.ExchangeProps
import Mathlib.Data.Rat.Encodable

/-!
Properties C108 (a GPX document survives writing and reading) and C109 (what is added to a document).
-/

namespace Karta.Gpx
open Karta Karta.Tab
open Karta.Exch (Keys lookup_iff keys_dictUpdate)

/-! ### Specification -/

/-- The values of `d`, as text, under the same keys; an empty text is `None`. -/
def SameText {V : Type} (str : V → String) (d : Dict V) (d' : Dict (Option String)) : Prop :=
  ∀ k, d'.lookup k = (d.lookup k).map fun v => if str v = "" then none else some (str v)

/-- The same, except perhaps for the key `"extensions"`. -/
def SameTextBut {V : Type} (str : V → String) (d : Dict V) (d' : Dict (Option String)) : Prop :=
  ∀ k, k ≠ "extensions" → d'.lookup k = (d.lookup k).map fun v => if str v = "" then none else some (str v)

/-- The same point with rounded coordinates. -/
structure SamePt {V : Type} (str : V → String) (round6 : ℚ → ℚ) (p : Pt V) (p' : Pt (Option String)) : Prop where
  lon : p'.lon = round6 p.lon
  lat : p'.lat = round6 p.lat
  props : SameText str p.props p'.props
  exts : SameText str p.exts p'.exts

/-- The same segment. -/
structure SameSeg {V : Type} (str : V → String) (round6 : ℚ → ℚ) (s : Seg V) (s' : Seg (Option String)) : Prop where
  pts : List.Forall₂ (SamePt str round6) s.pts s'.pts
  props : SameTextBut str s.props s'.props
  exts : SameText str s.exts s'.exts

/-- The same track. -/
structure SameTrk {V : Type} (str : V → String) (round6 : ℚ → ℚ) (t : Trk V) (t' : Trk (Option String)) : Prop where
  segs : List.Forall₂ (SameSeg str round6) t.segs t'.segs
  props : SameTextBut str t.props t'.props
  exts : SameText str t.exts t'.exts

/-- The same route. -/
structure SameRte {V : Type} (str : V → String) (round6 : ℚ → ℚ) (r : Rte V) (r' : Rte (Option String)) : Prop where
  pts : List.Forall₂ (SamePt str round6) r.pts r'.pts
  props : SameTextBut str r.props r'.props
  exts : SameText str r.exts r'.exts

/-- Distinct keys, none of which is the name of an element with another meaning. -/
structure Good {V : Type} (other : String) (props exts : Dict V) : Prop where
  keys : Keys props
  ekeys : Keys exts
  names : ∀ kv ∈ props, kv.1 ≠ "extensions" ∧ kv.1 ≠ other

/-- A point with such keys. -/
def GoodPt {V : Type} (p : Pt V) : Prop := Good "extensions" p.props p.exts

/-- A segment with such keys. -/
def GoodSeg {V : Type} (s : Seg V) : Prop := Good "trkpt" s.props s.exts ∧ ∀ p ∈ s.pts, GoodPt p

/-- A track with such keys. -/
def GoodTrk {V : Type} (t : Trk V) : Prop := Good "trkseg" t.props t.exts ∧ ∀ s ∈ t.segs, GoodSeg s

/-- A route with such keys. -/
def GoodRte {V : Type} (r : Rte V) : Prop := Good "rtept" r.props r.exts ∧ ∀ p ∈ r.pts, GoodPt p

/-! ### Dictionaries -/

section
variable {V : Type} (str : V → String) (num : ℚ → String) (float : String → Option ℚ) (round6 : ℚ → ℚ)

/-- The dictionary read from the nodes of a dictionary. -/
theorem pairs_eq (d : Dict V) : (dict2gpx str d).map (fun c => (c.tag, textOf c.text)) = d.map fun kv => (kv.1, if str kv.2 = "" then none else some (str kv.2)) := by
  rw [dict2gpx, List.map_map]
  rfl

theorem lookup_map {W : Type} (g : V → W) (d : Dict V) (k : String) : (d.map fun kv => (kv.1, g kv.2)).lookup k = (d.lookup k).map g := by
  induction d with
  | nil => rfl
  | cons x xs ih =>
    rw [List.map_cons, List.lookup_cons, List.lookup_cons]
    cases k == x.1 with
    | true => rfl
    | false => exact ih

theorem keys_map {W : Type} (g : V → W) {d : Dict V} (h : Keys d) : Keys (d.map fun kv => (kv.1, g kv.2)) := by
  unfold Keys
  rw [List.map_map]
  exact h

theorem lookup_fresh {W : Type} {l : Dict W} (h : Keys l) (k : String) : (dictUpdate [] l).lookup k = l.lookup k := by
  rw [lookup_dictUpdate _ _ h, updatedValue]
  cases l.lookup k <;> rfl

theorem sameText_dict {d : Dict V} (h : Keys d) : SameText str d (dictUpdate [] ((dict2gpx str d).map fun c => (c.tag, textOf c.text))) := by
  intro k
  rw [pairs_eq, lookup_fresh (keys_map (fun v => if str v = "" then none else some (str v)) h), lookup_map (fun v => if str v = "" then none else some (str v))]

theorem filter_none {l : List Node} {p : Node → Bool} (h : ∀ c ∈ l, p c = false) : l.filter p = [] := by
  rw [List.filter_eq_nil_iff]
  intro c hc
  rw [h c hc]
  simp

theorem filter_all {l : List Node} {p : Node → Bool} (h : ∀ c ∈ l, p c = true) : l.filter p = l := List.filter_eq_self.2 h

theorem mem_dict2gpx {d : Dict V} {c : Node} (h : c ∈ dict2gpx str d) : ∃ kv ∈ d, c.tag = kv.1 := by
  obtain ⟨kv, hkv, rfl⟩ := List.mem_map.1 h
  exact ⟨kv, hkv, rfl⟩

/-- The extensions of a node made from dictionaries with good names. -/
theorem readExts_built {tag other : String} {pos : Option (String × String)} {props exts : Dict V} (hg : Good other props exts) (rest : List Node) :
    SameText str exts (readExts (.mk tag pos none (dict2gpx str props ++ [extensions2gpx str exts] ++ rest))) := by
  have e : (dict2gpx str props ++ [extensions2gpx str exts] ++ rest).find? (fun c => c.tag == "extensions") = some (extensions2gpx str exts) := by
    rw [List.append_assoc, List.find?_append]
    have : (dict2gpx str props).find? (fun c => c.tag == "extensions") = none := by
      rw [List.find?_eq_none]
      intro c hc
      obtain ⟨kv, hkv, ht⟩ := mem_dict2gpx str hc
      rw [ht]
      simpa using (hg.names kv hkv).1
    rw [this]
    rfl
  unfold readExts
  simp only [Node.children]
  rw [e]
  exact sameText_dict str hg.ekeys

/-- The properties of a point. -/
theorem readProps_pt {tag : String} {pos : Option (String × String)} {props exts : Dict V} (hg : Good "extensions" props exts) :
    SameText str props (readProps (.mk tag pos none (dict2gpx str props ++ [extensions2gpx str exts])) ["extensions"]) := by
  unfold readProps
  simp only [Node.children]
  rw [List.filter_append, filter_all, filter_none, List.append_nil]
  · exact sameText_dict str hg.keys
  · intro c hc
    obtain rfl := List.mem_singleton.1 hc
    rfl
  · intro c hc
    obtain ⟨kv, hkv, ht⟩ := mem_dict2gpx str hc
    rw [ht]
    simpa using (hg.names kv hkv).1

/-- The properties of a container. -/
theorem readProps_container {tag other : String} {pos : Option (String × String)} {props exts : Dict V} (hg : Good other props exts)
    (ho : other ≠ "extensions") {rest : List Node} (hr : ∀ c ∈ rest, c.tag = other) :
    readProps (.mk tag pos none (dict2gpx str props ++ [extensions2gpx str exts] ++ rest)) [other] =
      dictUpdate [] ((props.map fun kv => (kv.1, if str kv.2 = "" then none else some (str kv.2))) ++ [("extensions", none)]) := by
  unfold readProps
  simp only [Node.children]
  rw [List.filter_append, List.filter_append, filter_all, filter_all, filter_none, List.append_nil, List.map_append, pairs_eq]
  · rfl
  · intro c hc
    rw [hr c hc]
    simp
  · intro c hc
    obtain rfl := List.mem_singleton.1 hc
    simpa [extensions2gpx, Node.tag] using ho.symm
  · intro c hc
    obtain ⟨kv, hkv, ht⟩ := mem_dict2gpx str hc
    rw [ht]
    simpa using (hg.names kv hkv).2

theorem keys_container {other : String} {props exts : Dict V} (hg : Good other props exts) {W : Type} (g : V → W) (w : W) :
    Keys ((props.map fun kv => (kv.1, g kv.2)) ++ [("extensions", w)]) := by
  unfold Keys
  rw [List.map_append, List.nodup_append]
  refine ⟨keys_map g hg.keys, by simp, ?_⟩
  intro a ha b hb
  rw [List.map_map] at ha
  obtain ⟨kv, hkv, rfl⟩ := List.mem_map.1 ha
  simp only [List.map_cons, List.map_nil, List.mem_singleton] at hb
  rw [hb]
  exact (hg.names kv hkv).1

theorem container_lookup {other : String} {props exts : Dict V} (hg : Good other props exts) (k : String) :
    (dictUpdate [] ((props.map fun kv => (kv.1, if str kv.2 = "" then none else some (str kv.2))) ++ [("extensions", none)])).lookup k =
      if k = "extensions" then some none else (props.lookup k).map fun v => if str v = "" then none else some (str v) := by
  rw [lookup_fresh (keys_container hg (fun v => if str v = "" then none else some (str v)) none), List.lookup_append,
    lookup_map (fun v => if str v = "" then none else some (str v))]
  by_cases hk : k = "extensions"
  · rw [if_pos hk]
    have : props.lookup k = none := by
      cases h : props.lookup k with
      | none => rfl
      | some v => exact absurd hk (hg.names _ ((lookup_iff hg.keys k v).1 h)).1
    rw [this, hk]
    rfl
  · rw [if_neg hk]
    have : (k == "extensions") = false := beq_eq_false_iff_ne.2 hk
    simp [List.lookup_cons, this]

theorem container_same {tag other : String} {pos : Option (String × String)} {props exts : Dict V} (hg : Good other props exts)
    (ho : other ≠ "extensions") {rest : List Node} (hr : ∀ c ∈ rest, c.tag = other) :
    SameTextBut str props (readProps (.mk tag pos none (dict2gpx str props ++ [extensions2gpx str exts] ++ rest)) [other]) := by
  intro k hk
  rw [readProps_container str hg ho hr, container_lookup str hg, if_neg hk]

theorem container_ext {tag other : String} {pos : Option (String × String)} {props exts : Dict V} (hg : Good other props exts)
    (ho : other ≠ "extensions") {rest : List Node} (hr : ∀ c ∈ rest, c.tag = other) :
    (readProps (.mk tag pos none (dict2gpx str props ++ [extensions2gpx str exts] ++ rest)) [other]).lookup "extensions" = some none := by
  rw [readProps_container str hg ho hr, container_lookup str hg, if_pos rfl]

/-- The members of a container are found again. -/
theorem members {other : String} {props exts : Dict V} (hg : Good other props exts) (ho : other ≠ "extensions") {rest : List Node}
    (hr : ∀ c ∈ rest, c.tag = other) :
    (dict2gpx str props ++ [extensions2gpx str exts] ++ rest).filter (fun c => c.tag == other) = rest := by
  rw [List.filter_append, List.filter_append, filter_none, filter_none, filter_all]
  · rfl
  · intro c hc; rw [hr c hc]; simp
  · intro c hc
    obtain rfl := List.mem_singleton.1 hc
    simpa [extensions2gpx, Node.tag] using ho.symm
  · intro c hc
    obtain ⟨kv, hkv, ht⟩ := mem_dict2gpx str hc
    rw [ht]
    simpa using (hg.names kv hkv).2

/-! ### Reading back -/

variable {num float}

theorem read_pt (hf : ∀ q, float (num q) = some q) (tag : String) {p : Pt V} (hg : GoodPt p) :
    ∃ p', readPt float round6 (buildPt str num tag p) = .ok p' ∧ SamePt str round6 p p' := by
  refine ⟨_, by simp only [readPt, buildPt, Node.pos, hf]; rfl, ⟨rfl, rfl, readProps_pt str hg, ?_⟩⟩
  have := readExts_built (tag := tag) (pos := some (num p.lon, num p.lat)) str hg []
  rw [List.append_nil] at this
  exact this

theorem read_pts (hf : ∀ q, float (num q) = some q) (tag : String) (ps : List (Pt V)) (hg : ∀ p ∈ ps, GoodPt p) :
    ∃ ps', readPts float round6 (ps.map (buildPt str num tag)) = .ok ps' ∧ List.Forall₂ (SamePt str round6) ps ps' := by
  induction ps with
  | nil => exact ⟨[], rfl, .nil⟩
  | cons p ps ih =>
    obtain ⟨p', h1, h2⟩ := read_pt str round6 hf tag (hg p (by simp))
    obtain ⟨ps', h3, h4⟩ := ih fun q hq => hg q (by simp [hq])
    exact ⟨p' :: ps', by rw [List.map_cons, readPts, h1]; simp only; rw [h3], .cons h2 h4⟩

theorem tags_pts (tag : String) (ps : List (Pt V)) : ∀ c ∈ ps.map (buildPt str num tag), c.tag = tag := by
  intro c hc
  obtain ⟨p, -, rfl⟩ := List.mem_map.1 hc
  rfl

theorem read_seg (hf : ∀ q, float (num q) = some q) {s : Seg V} (hg : GoodSeg s) :
    ∃ s', readSeg float round6 (buildSeg str num s) = .ok s' ∧ SameSeg str round6 s s' ∧ s'.props.lookup "extensions" = some none := by
  obtain ⟨ps', h1, h2⟩ := read_pts str round6 hf "trkpt" s.pts hg.2
  refine ⟨⟨ps', readProps (buildSeg str num s) ["trkpt"], readExts (buildSeg str num s)⟩, ?_, ⟨h2, container_same (tag := "trkseg") (pos := none) str hg.1 (by decide) (tags_pts str "trkpt" s.pts), readExts_built (tag := "trkseg") (pos := none) str hg.1 _⟩, ?_⟩
  · simp only [readSeg, buildSeg, Node.children]
    rw [members str hg.1 (by decide) (tags_pts str "trkpt" s.pts), h1]
  · exact container_ext str hg.1 (by decide) (tags_pts str "trkpt" s.pts)

theorem read_segs (hf : ∀ q, float (num q) = some q) (ss : List (Seg V)) (hg : ∀ s ∈ ss, GoodSeg s) :
    ∃ ss', readSegs float round6 (ss.map (buildSeg str num)) = .ok ss' ∧ List.Forall₂ (SameSeg str round6) ss ss' ∧
      ∀ s' ∈ ss', s'.props.lookup "extensions" = some none := by
  induction ss with
  | nil => exact ⟨[], rfl, .nil, by simp⟩
  | cons p ps ih =>
    obtain ⟨p', h1, h2, h5⟩ := read_seg str round6 hf (hg p (by simp))
    obtain ⟨ps', h3, h4, h6⟩ := ih fun q hq => hg q (by simp [hq])
    exact ⟨p' :: ps', by rw [List.map_cons, readSegs, h1]; simp only; rw [h3], .cons h2 h4, by
      intro s' hs'
      rcases List.mem_cons.1 hs' with rfl | hs'
      · exact h5
      · exact h6 s' hs'⟩

theorem tags_segs (ss : List (Seg V)) : ∀ c ∈ ss.map (buildSeg str num), c.tag = "trkseg" := by
  intro c hc
  obtain ⟨p, -, rfl⟩ := List.mem_map.1 hc
  rfl

theorem read_trk (hf : ∀ q, float (num q) = some q) {t : Trk V} (hg : GoodTrk t) :
    ∃ t', parseTrk float round6 (buildTrk str num t) = .ok t' ∧ SameTrk str round6 t t' ∧ t'.props.lookup "extensions" = some none ∧
      ∀ s' ∈ t'.segs, s'.props.lookup "extensions" = some none := by
  obtain ⟨ps', h1, h2, h3⟩ := read_segs str round6 hf t.segs hg.2
  refine ⟨⟨ps', readProps (buildTrk str num t) ["trkseg"], readExts (buildTrk str num t)⟩, ?_, ⟨h2, container_same (tag := "trk") (pos := none) str hg.1 (by decide) (tags_segs str t.segs), readExts_built (tag := "trk") (pos := none) str hg.1 _⟩, ?_, h3⟩
  · simp only [parseTrk, buildTrk, Node.children]
    rw [members str hg.1 (by decide) (tags_segs str t.segs), h1]
  · exact container_ext str hg.1 (by decide) (tags_segs str t.segs)

theorem read_trks (hf : ∀ q, float (num q) = some q) (ts : List (Trk V)) (hg : ∀ s ∈ ts, GoodTrk s) :
    ∃ ts', parseTrks float round6 (ts.map (buildTrk str num)) = .ok ts' ∧ List.Forall₂ (SameTrk str round6) ts ts' ∧
      ∀ t' ∈ ts', t'.props.lookup "extensions" = some none ∧ ∀ s' ∈ t'.segs, s'.props.lookup "extensions" = some none := by
  induction ts with
  | nil => exact ⟨[], rfl, .nil, by simp⟩
  | cons p ps ih =>
    obtain ⟨p', h1, h2, h5⟩ := read_trk str round6 hf (hg p (by simp))
    obtain ⟨ps', h3, h4, h6⟩ := ih fun q hq => hg q (by simp [hq])
    exact ⟨p' :: ps', by rw [List.map_cons, parseTrks, h1]; simp only; rw [h3], .cons h2 h4, by
      intro s' hs'
      rcases List.mem_cons.1 hs' with rfl | hs'
      · exact h5
      · exact h6 s' hs'⟩

theorem read_rte (hf : ∀ q, float (num q) = some q) {r : Rte V} (hg : GoodRte r) :
    ∃ r', parseRte float round6 (buildRte str num r) = .ok r' ∧ SameRte str round6 r r' ∧ r'.props.lookup "extensions" = some none := by
  obtain ⟨ps', h1, h2⟩ := read_pts str round6 hf "rtept" r.pts hg.2
  refine ⟨⟨ps', readProps (buildRte str num r) ["rtept"], readExts (buildRte str num r)⟩, ?_, ⟨h2, container_same (tag := "rte") (pos := none) str hg.1 (by decide) (tags_pts str "rtept" r.pts), readExts_built (tag := "rte") (pos := none) str hg.1 _⟩, ?_⟩
  · simp only [parseRte, buildRte, Node.children]
    rw [members str hg.1 (by decide) (tags_pts str "rtept" r.pts), h1]
  · exact container_ext str hg.1 (by decide) (tags_pts str "rtept" r.pts)

theorem read_rtes (hf : ∀ q, float (num q) = some q) (ts : List (Rte V)) (hg : ∀ s ∈ ts, GoodRte s) :
    ∃ ts', parseRtes float round6 (ts.map (buildRte str num)) = .ok ts' ∧ List.Forall₂ (SameRte str round6) ts ts' ∧
      ∀ t' ∈ ts', t'.props.lookup "extensions" = some none := by
  induction ts with
  | nil => exact ⟨[], rfl, .nil, by simp⟩
  | cons p ps ih =>
    obtain ⟨p', h1, h2, h5⟩ := read_rte str round6 hf (hg p (by simp))
    obtain ⟨ps', h3, h4, h6⟩ := ih fun q hq => hg q (by simp [hq])
    exact ⟨p' :: ps', by rw [List.map_cons, parseRtes, h1]; simp only; rw [h3], .cons h2 h4, by
      intro s' hs'
      rcases List.mem_cons.1 hs' with rfl | hs'
      · exact h5
      · exact h6 s' hs'⟩

/-! ### C108 -/

theorem tags_trks (ts : List (Trk V)) : ∀ c ∈ ts.map (buildTrk str num), c.tag = "trk" := by
  intro c hc
  obtain ⟨p, -, rfl⟩ := List.mem_map.1 hc
  rfl

theorem tags_rtes (ts : List (Rte V)) : ∀ c ∈ ts.map (buildRte str num), c.tag = "rte" := by
  intro c hc
  obtain ⟨p, -, rfl⟩ := List.mem_map.1 hc
  rfl

theorem read_doc (hf : ∀ q, float (num q) = some q) (w t r : Bool) (d : Doc V) (hw : w = false ∨ d.waypts = [])
    (ht : ∀ x ∈ d.tracks, GoodTrk x) (hr : ∀ x ∈ d.routes, GoodRte x) :
    ∃ d', fromFile float round6 (asXml str num w t r d) = .ok d' ∧ d'.waypts = [] ∧
      (List.Forall₂ (SameTrk str round6) (if t then d.tracks else []) d'.tracks) ∧ (List.Forall₂ (SameRte str round6) (if r then d.routes else []) d'.routes) ∧
      (∀ t' ∈ d'.tracks, t'.props.lookup "extensions" = some none ∧ ∀ s' ∈ t'.segs, s'.props.lookup "extensions" = some none) ∧
      ∀ r' ∈ d'.routes, r'.props.lookup "extensions" = some none := by
  have e : asXml str num w t r d = .mk "gpx" none none ((if t then d.tracks else []).map (buildTrk str num) ++ (if r then d.routes else []).map (buildRte str num)) := by
    have : (if w then d.waypts.map (buildPt str num "wpt") else []) = [] := by
      rcases hw with hw | hw
      · rw [hw]; rfl
      · rw [hw]; simp
    rw [asXml, this, List.nil_append]
    cases t <;> cases r <;> rfl
  obtain ⟨ts', h1, h2, h3⟩ := read_trks str round6 hf (if t then d.tracks else []) (by
    intro s hs
    cases t with
    | true => exact ht s hs
    | false => exact absurd hs (by simp))
  obtain ⟨rs', h4, h5, h6⟩ := read_rtes str round6 hf (if r then d.routes else []) (by
    intro s hs
    cases r with
    | true => exact hr s hs
    | false => exact absurd hs (by simp))
  refine ⟨⟨[], ts', rs'⟩, ?_, rfl, h2, h5, h3, h6⟩
  have T := tags_trks (num := num) str (if t then d.tracks else [])
  have R := tags_rtes (num := num) str (if r then d.routes else [])
  rw [e, fromFile]
  simp only [Node.children]
  rw [List.filter_append, List.filter_append, List.filter_append,
    filter_none (p := fun c => c.tag == "wpt") (fun c hc => by rw [T c hc]; decide), filter_none (p := fun c => c.tag == "wpt") (fun c hc => by rw [R c hc]; decide),
    filter_all (p := fun c => c.tag == "trk") (fun c hc => by rw [T c hc]; decide), filter_none (p := fun c => c.tag == "trk") (fun c hc => by rw [R c hc]; decide),
    filter_none (p := fun c => c.tag == "rte") (fun c hc => by rw [T c hc]; decide), filter_all (p := fun c => c.tag == "rte") (fun c hc => by rw [R c hc]; decide),
    List.append_nil, List.nil_append, List.append_nil, h1]
  simp only
  rw [h4]

/-- C108 for tracks and routes: if no waypoints are written, every track, segment, route and point comes back with its coordinates rounded to six
decimals and with its properties and extensions as text.  Missing: the property `"extensions"` that tracks, segments and routes acquire, see
`C108_violated_extensions`, and documents with waypoints, see `C108_violated_waypoints`. -/
theorem C108_tracks_and_routes_partial (hf : ∀ q, float (num q) = some q) (w t r : Bool) (d : Doc V) (hw : w = false ∨ d.waypts = [])
    (ht : ∀ x ∈ d.tracks, GoodTrk x) (hr : ∀ x ∈ d.routes, GoodRte x) :
    ∃ d', fromFile float round6 (asXml str num w t r d) = .ok d' ∧
      (List.Forall₂ (SameTrk str round6) (if t then d.tracks else []) d'.tracks) ∧
      (List.Forall₂ (SameRte str round6) (if r then d.routes else []) d'.routes) := by
  obtain ⟨d', h1, -, h2, h3, -⟩ := read_doc str round6 hf w t r d hw ht hr
  exact ⟨d', h1, h2, h3⟩

/-- Every track, segment and route read from a document that karta wrote has a property `"extensions"` that it did not have before. -/
theorem C108_violated_extensions (hf : ∀ q, float (num q) = some q) (w t r : Bool) (d : Doc V) (hw : w = false ∨ d.waypts = [])
    (ht : ∀ x ∈ d.tracks, GoodTrk x) (hr : ∀ x ∈ d.routes, GoodRte x) :
    ∃ d', fromFile float round6 (asXml str num w t r d) = .ok d' ∧
      (∀ x ∈ d'.tracks, x.props.lookup "extensions" = some none ∧ ∀ s ∈ x.segs, s.props.lookup "extensions" = some none) ∧
      (∀ x ∈ d'.routes, x.props.lookup "extensions" = some none) ∧ ∀ x ∈ d.tracks, x.props.lookup "extensions" = none := by
  obtain ⟨d', h1, -, -, -, h4, h5⟩ := read_doc str round6 hf w t r d hw ht hr
  refine ⟨d', h1, h4, h5, ?_⟩
  intro x hx
  cases h : x.props.lookup "extensions" with
  | none => rfl
  | some v => exact absurd rfl ((ht x hx).1.names _ ((lookup_iff (ht x hx).1.keys _ _).1 h)).1

/-- A document with a waypoint, once written, cannot be read: `AttributeError`. -/
theorem C108_violated_waypoints (hf : ∀ q, float (num q) = some q) (t r : Bool) (d : Doc V) (hw : d.waypts ≠ []) :
    fromFile float round6 (asXml str num true t r d) = .error .attributeError := by
  obtain ⟨p, ps, hp⟩ := List.exists_cons_of_ne_nil hw
  have e : ∃ rest, (asXml str num true t r d).children.filter (fun c => c.tag == "wpt") = buildPt str num "wpt" p :: rest := by
    simp only [asXml, Node.children, hp, if_true, List.map_cons, List.cons_append, List.filter_cons]
    exact ⟨_, rfl⟩
  obtain ⟨rest, e⟩ := e
  rw [fromFile, e]
  simp only [parseWpt, readPt, buildPt, Node.pos, hf]

/-- C108 for `read_gpx_tracks`: a line for each segment of each track, through its points in order. -/
theorem C108_lines_partial (hf : ∀ q, float (num q) = some q) (w r : Bool) (d : Doc V) (hw : w = false ∨ d.waypts = [])
    (ht : ∀ x ∈ d.tracks, GoodTrk x) (hr : ∀ x ∈ d.routes, GoodRte x) :
    ∃ ls, readTracks float round6 (asXml str num w true r d) = .ok ls ∧
      ls.map (fun t => t.map Prod.fst) = d.tracks.map fun t => t.segs.map fun s => s.pts.map fun p => (round6 p.lon, round6 p.lat) := by
  obtain ⟨d', h1, -, h2, -⟩ := read_doc str round6 hf w true r d hw ht hr
  refine ⟨_, by rw [readTracks, h1], ?_⟩
  have pts : ∀ {ps : List (Pt V)} {ps'}, List.Forall₂ (SamePt str round6) ps ps' →
      ps'.map (fun p => (p.lon, p.lat)) = ps.map fun p => (round6 p.lon, round6 p.lat) := by
    intro ps ps' h
    induction h with
    | nil => rfl
    | cons a _ ih => rw [List.map_cons, List.map_cons, ih, a.lon, a.lat]
  have segs : ∀ {ss : List (Seg V)} {ss'}, List.Forall₂ (SameSeg str round6) ss ss' →
      ss'.map (fun s => s.pts.map fun p => (p.lon, p.lat)) = ss.map fun s => s.pts.map fun p => (round6 p.lon, round6 p.lat) := by
    intro ss ss' h
    induction h with
    | nil => rfl
    | cons a _ ih => rw [List.map_cons, List.map_cons, ih, pts a.pts]
  have trks : ∀ {ts : List (Trk V)} {ts'}, List.Forall₂ (SameTrk str round6) ts ts' →
      ts'.map (fun t => t.segs.map fun s => s.pts.map fun p => (p.lon, p.lat)) = ts.map fun t => t.segs.map fun s => s.pts.map fun p => (round6 p.lon, round6 p.lat) := by
    intro ts ts' h
    induction h with
    | nil => rfl
    | cons a _ ih => rw [List.map_cons, List.map_cons, ih, segs a.segs]
  rw [if_pos rfl] at h2
  rw [← trks h2, List.map_map]
  apply List.map_congr_left
  intro t' _
  simp only [Function.comp, List.map_map]
  rfl

end

/-! ### C109 -/

/-- The properties of a geometry divided into those GPX knows and extensions, all of them as text. -/
structure Divided {V : Type} (str : Option V → String) (txt : String → V) (d props exts : Dict (Option V)) : Prop where
  props : ∀ k, props.lookup k = if k ∈ valid then (d.lookup k).map fun v => some (txt (str v)) else none
  exts : ∀ k, exts.lookup k = if k ∈ valid then none else (d.lookup k).map fun v => some (txt (str v))

/-- The track point for vertex `v` in row `i` of the attribute table `t`: known fields as properties, others as extensions, and the height of a
vertex with three coordinates as `"ele"` if any known field is present. -/
structure PointOf {V : Type} (num : ℚ → V) (t : Table String V) (i : Nat) (v : List ℚ) (p : Pt (Option V)) : Prop where
  lon : v[0]? = some p.lon
  lat : v[1]? = some p.lat
  props : ∀ k ∈ valid, k ≠ "ele" → p.props.lookup k = t.cell i k
  ele : v[2]? = none → p.props.lookup "ele" = t.cell i "ele"
  height : ∀ z, v[2]? = some z → (∃ k ∈ t.fields, k ∈ valid) → p.props.lookup "ele" = some (some (num z))
  noProps : ∀ k, k ∉ valid → p.props.lookup k = none
  exts : ∀ k, k ∉ valid → p.exts.lookup k = t.cell i k
  noExts : ∀ k ∈ valid, p.exts.lookup k = none

/-- The segment for a multipoint. -/
def SegOf {V : Type} (str : Option V → String) (txt : String → V) (num : ℚ → V) : Src V → Seg (Option V) → Prop
  | .line _ _, _ => False
  | .multi vs props data _, s =>
    Divided str txt props s.props s.exts ∧ s.pts.length = vs.length ∧ ∀ (i : Nat) v p, vs[i]? = some v → s.pts[i]? = some p → PointOf num data i v p

/-- A multipoint with a row for each vertex of two or three coordinates. -/
def GoodSrc {V : Type} : Src V → Prop
  | .line _ _ => False
  | .multi vs props data ord => Keys props ∧ data.WF ∧ data.data.length = vs.length ∧ IsOrder ord data.fields ∧ ∀ v ∈ vs, v.length = 2 ∨ v.length = 3

section
variable {V : Type} (str : Option V → String) (txt : String → V) (num : ℚ → V)

theorem lookup_filter_key (p : String → Bool) (d : Dict (Option V)) (k : String) :
    (d.filter fun kv => p kv.1).lookup k = if p k then d.lookup k else none := by
  induction d with
  | nil => cases p k <;> rfl
  | cons x xs ih =>
    rw [List.filter_cons]
    by_cases hx : p x.1 = true
    · rw [if_pos hx, List.lookup_cons, List.lookup_cons, ih]
      by_cases hk : k = x.1
      · rw [hk, beq_self_eq_true, hx]; rfl
      · rw [beq_eq_false_iff_ne.2 hk]
    · rw [if_neg hx, ih, List.lookup_cons]
      by_cases hk : k = x.1
      · rw [hk, if_neg hx, if_neg hx]
      · rw [beq_eq_false_iff_ne.2 hk]

theorem sortProps_divided (d : Dict (Option V)) : Divided str txt d (sortProps str txt d).1 (sortProps str txt d).2 := by
  constructor
  · intro k
    unfold sortProps
    simp only
    rw [lookup_map (fun v => some (txt (str v))), lookup_filter_key (fun k => valid.contains k)]
    by_cases hk : k ∈ valid
    · rw [if_pos hk, if_pos (by simpa using hk)]
    · rw [if_neg hk, if_neg (by simpa using hk)]; rfl
  · intro k
    unfold sortProps
    simp only
    rw [lookup_map (fun v => some (txt (str v))), lookup_filter_key (fun k => !valid.contains k)]
    by_cases hk : k ∈ valid
    · rw [if_pos hk, if_neg (by simpa using hk)]; rfl
    · rw [if_neg hk, if_pos (by simpa using hk)]

theorem lookup_single (d : Dict (Option V)) (j : String) (a : Option V) (k : String) :
    (dictUpdate d [(j, a)]).lookup k = if k = j then some a else d.lookup k := by
  rw [lookup_dictUpdate _ _ (by simp), updatedValue, List.lookup_cons]
  by_cases hk : k = j
  · rw [if_pos hk, hk, beq_self_eq_true]
  · rw [if_neg hk, beq_eq_false_iff_ne.2 hk]; rfl

theorem pointProps_ok {t : Table String V} (ht : t.WF) {i : Nat} (hi : i < t.data.length) (z : Option ℚ) (ks : List String) :
    ∀ (d : Dict (Option V)), (∀ k ∈ ks, k ∈ t.fields) → ∃ d', pointProps num t i z ks d = .ok d' ∧
      (∀ k, (k ≠ "ele" ∨ z = none) → d'.lookup k = if k ∈ ks then t.cell i k else d.lookup k) ∧
      (∀ z', z = some z' → d'.lookup "ele" = if ks = [] then d.lookup "ele" else some (some (num z'))) := by
  induction ks with
  | nil => intro d _; exact ⟨d, rfl, by simp, by simp⟩
  | cons j js ih =>
    intro d hks
    obtain ⟨c, hc, hl, hcell⟩ := Table.getfield_spec ht (hks j (by simp))
    have hil : i < c.length := by rw [hl]; exact hi
    have hci : c[i]? = some c[i] := List.getElem?_eq_getElem hil
    have hcj : t.cell i j = some c[i] := by rw [← hcell i, hci]
    cases z with
    | none =>
      obtain ⟨d', h1, h2, -⟩ := ih (dictUpdate d [(j, c[i])]) (fun k hk => hks k (by simp [hk]))
      refine ⟨d', by rw [pointProps, hc]; simp only; rw [hci]; exact h1, ?_, by simp⟩
      intro k _
      rw [h2 k (Or.inr rfl), lookup_single]
      by_cases hkj : k = j
      · subst hkj
        by_cases hkjs : k ∈ js
        · rw [if_pos hkjs, if_pos (by simp)]
        · rw [if_neg hkjs, if_pos rfl, if_pos (by simp), hcj]
      · by_cases hkjs : k ∈ js
        · rw [if_pos hkjs, if_pos (by simp [hkjs])]
        · rw [if_neg hkjs, if_neg hkj, if_neg (by simp [hkj, hkjs])]
    | some z =>
      obtain ⟨d', h1, h2, h3⟩ := ih (dictUpdate (dictUpdate d [(j, c[i])]) [("ele", some (num z))]) (fun k hk => hks k (by simp [hk]))
      refine ⟨d', by rw [pointProps, hc]; simp only; rw [hci]; exact h1, ?_, ?_⟩
      · intro k hk
        have hke : k ≠ "ele" := hk.resolve_right (by simp)
        rw [h2 k (Or.inl hke), lookup_single, if_neg hke, lookup_single]
        by_cases hkj : k = j
        · subst hkj
          by_cases hkjs : k ∈ js
          · rw [if_pos hkjs, if_pos (by simp)]
          · rw [if_neg hkjs, if_pos rfl, if_pos (by simp), hcj]
        · by_cases hkjs : k ∈ js
          · rw [if_pos hkjs, if_pos (by simp [hkjs])]
          · rw [if_neg hkjs, if_neg hkj, if_neg (by simp [hkj, hkjs])]
      · intro z' hz'
        obtain rfl := Option.some.inj hz'
        rw [h3 z rfl, if_neg (by simp : ¬ (j :: js = []))]
        by_cases hj : js = []
        · rw [if_pos hj, lookup_single, if_pos rfl]
        · rw [if_neg hj]

theorem third_eq {v : List ℚ} (h : v.length = 2 ∨ v.length = 3) : third v = v[2]? := by
  match v, h with
  | [_, _], _ => rfl
  | [_, _, _], _ => rfl
  | [], h => simp at h
  | [_], h => simp at h
  | _ :: _ :: _ :: _ :: _, h => simp at h

theorem ele_valid : "ele" ∈ valid := by decide

theorem trackPoints_ok {t : Table String V} (ht : t.WF) {ord : List String} (ho : IsOrder ord t.fields) (vs : List (List ℚ)) :
    ∀ n, t.data.length = n + vs.length → (∀ v ∈ vs, v.length = 2 ∨ v.length = 3) →
      ∃ ps, trackPoints num t (ord.filter fun k => valid.contains k) (ord.filter fun k => !valid.contains k) n vs = .ok ps ∧
        ps.length = vs.length ∧ ∀ (i : Nat) v p, vs[i]? = some v → ps[i]? = some p → PointOf num t (n + i) v p := by
  induction vs with
  | nil => intro n _ _; exact ⟨[], rfl, rfl, by simp⟩
  | cons v vs ih =>
    intro n hn hv
    obtain ⟨ps, h1, h2, h3⟩ := ih (n + 1) (by simp at hn; omega) (fun w hw => hv w (by simp [hw]))
    have hni : n < t.data.length := by simp at hn; omega
    have ford : ∀ k, k ∈ ord ↔ k ∈ t.fields := ho.2
    obtain ⟨dp, hp1, hp2, hp3⟩ := pointProps_ok num ht hni (third v) (ord.filter fun k => valid.contains k) []
      (fun k hk => (ford k).1 (List.mem_filter.1 hk).1)
    obtain ⟨de, he1, he2, -⟩ := pointProps_ok num ht hni none (ord.filter fun k => !valid.contains k) []
      (fun k hk => (ford k).1 (List.mem_filter.1 hk).1)
    have h3v := third_eq (hv v (by simp))
    have memv : ∀ k, k ∈ (ord.filter fun k => valid.contains k) ↔ k ∈ t.fields ∧ k ∈ valid := by
      intro k; rw [List.mem_filter, ford]; simp
    have meme : ∀ k, k ∈ (ord.filter fun k => !valid.contains k) ↔ k ∈ t.fields ∧ k ∉ valid := by
      intro k; rw [List.mem_filter, ford]; simp
    obtain ⟨x, y, rest, rfl⟩ : ∃ x y rest, v = x :: y :: rest := by
      rcases v with _ | ⟨x, _ | ⟨y, rest⟩⟩
      · have := hv [] (by simp); simp at this
      · have := hv [x] (by simp); simp at this
      · exact ⟨x, y, rest, rfl⟩
    refine ⟨⟨x, y, dp, de⟩ :: ps, ?_, by simp [h2], ?_⟩
    · rw [trackPoints, hp1]
      simp only
      rw [he1]
      simp only
      rw [h1]
    · intro i w p hw hp
      cases i with
      | succ i =>
        have := h3 i w p (by simpa using hw) (by simpa using hp)
        rw [show n + (i + 1) = n + 1 + i by omega]
        exact this
      | zero =>
        obtain rfl : x :: y :: rest = w := by simpa using hw
        obtain rfl : (⟨x, y, dp, de⟩ : Pt (Option V)) = p := by simpa using hp
        rw [Nat.add_zero]
        refine ⟨rfl, rfl, ?_, ?_, ?_, ?_, ?_, ?_⟩
        · intro k hk hke
          show dp.lookup k = _
          rw [hp2 k (Or.inl hke)]
          by_cases hkf : k ∈ t.fields
          · rw [if_pos ((memv k).2 ⟨hkf, hk⟩)]
          · rw [if_neg (fun h => hkf ((memv k).1 h).1), Table.cell_none hkf]; rfl
        · intro hz
          show dp.lookup "ele" = _
          rw [hp2 "ele" (Or.inr (h3v.trans hz))]
          by_cases hkf : "ele" ∈ t.fields
          · rw [if_pos ((memv _).2 ⟨hkf, ele_valid⟩)]
          · rw [if_neg (fun h => hkf ((memv _).1 h).1), Table.cell_none hkf]; rfl
        · rintro z hz ⟨k, hkf, hkv⟩
          show dp.lookup "ele" = _
          rw [hp3 z (h3v.trans hz), if_neg]
          intro h0
          have := (memv k).2 ⟨hkf, hkv⟩
          rw [h0] at this
          simp at this
        · intro k hk
          show dp.lookup k = _
          rw [hp2 k (Or.inl (fun h => hk (h ▸ ele_valid))), if_neg (fun h => hk ((memv k).1 h).2)]
          rfl
        · intro k hk
          show de.lookup k = _
          rw [he2 k (Or.inr rfl)]
          by_cases hkf : k ∈ t.fields
          · rw [if_pos ((meme k).2 ⟨hkf, hk⟩)]
          · rw [if_neg (fun h => hkf ((meme k).1 h).1), Table.cell_none hkf]; rfl
        · intro k hk
          show de.lookup k = _
          rw [he2 k (Or.inr rfl), if_neg (fun h => ((meme k).1 h).2 hk)]
          rfl

theorem trackSegs_ok (lines : List (Src V)) (hg : ∀ s ∈ lines, GoodSrc s) :
    ∃ ss, trackSegs str txt num lines = .ok ss ∧ List.Forall₂ (SegOf str txt num) lines ss := by
  induction lines with
  | nil => exact ⟨[], rfl, .nil⟩
  | cons l ls ih =>
    obtain ⟨ss, h1, h2⟩ := ih fun s hs => hg s (by simp [hs])
    cases l with
    | line vs props => exact absurd (hg (.line vs props) (by simp)) id
    | multi vs props data ord =>
      obtain ⟨-, hw, hl, ho, hv⟩ := hg (.multi vs props data ord) (by simp)
      obtain ⟨ps, h3, h4, h5⟩ := trackPoints_ok num hw ho vs 0 (by omega) hv
      refine ⟨⟨ps, (sortProps str txt props).1, (sortProps str txt props).2⟩ :: ss, ?_, .cons ⟨sortProps_divided str txt props, h4, ?_⟩ h2⟩
      · rw [trackSegs, h3]
        simp only
        rw [h1]
      · intro i v p h h'
        have := h5 i v p h h'
        rw [Nat.zero_add] at this
        exact this

/-- C109 for tracks made of multipoints: `add_track` adds one track at the end with a segment for each multipoint and in it a point for each
vertex, carrying the attributes of that vertex.  Missing: lines, see `C109_violated_lines`, and the height of vertices without any known
attribute, see `C109_violated_height`. -/
theorem C109_tracks_partial (d : Doc (Option V)) (lines : List (Src V)) (attributes : Dict (Option V)) (hg : ∀ s ∈ lines, GoodSrc s) :
    ∃ d' t, addTrack str txt num d lines attributes = .ok d' ∧ d'.tracks = d.tracks ++ [t] ∧ d'.waypts = d.waypts ∧ d'.routes = d.routes ∧
      List.Forall₂ (SegOf str txt num) lines t.segs ∧ t.exts = [] ∧ ∀ k, t.props.lookup k = (attributes.lookup k).map fun v => some (txt (str v)) := by
  obtain ⟨ss, h1, h2⟩ := trackSegs_ok str txt num lines hg
  exact ⟨{ d with tracks := d.tracks ++ [⟨ss, attributes.map fun kv => (kv.1, some (txt (str kv.2))), []⟩] },
    ⟨ss, attributes.map fun kv => (kv.1, some (txt (str kv.2))), []⟩, by rw [addTrack, h1], rfl, rfl, rfl, h2, rfl, fun k => lookup_map (fun v => some (txt (str v))) attributes k⟩

/-- A track of lines cannot be added: `AttributeError`.  In particular the lines that `read_gpx_tracks` returns cannot be written back. -/
theorem C109_violated_lines (d : Doc (Option V)) (vs : List (List ℚ)) (props : Dict (Option V)) (rest : List (Src V)) (attributes : Dict (Option V)) :
    addTrack str txt num d (.line vs props :: rest) attributes = .error .attributeError := rfl

/-- The heights of a multipoint with three coordinates and no known attribute are lost. -/
theorem C109_violated_height {t : Table String V} (ht : t.WF) {ord : List String} (ho : IsOrder ord t.fields) (hf : ∀ k ∈ t.fields, k ∉ valid)
    {vs : List (List ℚ)} (hn : t.data.length = vs.length) (hv : ∀ v ∈ vs, v.length = 3) {props : Dict (Option V)} (hk : Keys props)
    (d : Doc (Option V)) :
    ∃ d' t' s, addTrack str txt num d [.multi vs props t ord] [] = .ok d' ∧ d'.tracks = d.tracks ++ [t'] ∧ t'.segs = [s] ∧ s.pts.length = vs.length ∧
      ∀ p ∈ s.pts, p.props.lookup "ele" = none ∧ p.exts.lookup "ele" = none := by
  have fe : (ord.filter fun k => valid.contains k) = [] := by
    rw [List.filter_eq_nil_iff]
    intro k hk
    simpa using hf k ((ho.2 k).1 hk)
  obtain ⟨ps, h1, h2, h3⟩ := trackPoints_ok num ht ho vs 0 (by omega) (fun v hv' => Or.inr (hv v hv'))
  have key : ∀ (n : Nat) (vs : List (List ℚ)) ps, trackPoints num t [] (ord.filter fun k => !valid.contains k) n vs = .ok ps → ∀ p ∈ ps, p.props = [] := by
    intro n vs
    induction vs generalizing n with
    | nil =>
      intro ps h p hp
      simp only [trackPoints, Except.ok.injEq] at h
      rw [← h] at hp
      exact absurd hp (by simp)
    | cons v vs ih =>
      intro ps h p hp
      rw [trackPoints] at h
      simp only [pointProps] at h
      cases h4 : pointProps num t n none (ord.filter fun k => !valid.contains k) [] with
      | error e => rw [h4] at h; exact absurd h (by simp)
      | ok x =>
        rw [h4] at h
        simp only at h
        rcases v with _ | ⟨a, _ | ⟨b, rest⟩⟩
        · exact absurd h (by simp)
        · exact absurd h (by simp)
        · simp only at h
          cases h5 : trackPoints num t [] (ord.filter fun k => !valid.contains k) (n + 1) vs with
          | error e => rw [h5] at h; exact absurd h (by simp)
          | ok qs =>
            rw [h5] at h
            simp only [Except.ok.injEq] at h
            rw [← h] at hp
            rcases List.mem_cons.1 hp with rfl | hp
            · rfl
            · exact ih (n + 1) qs h5 p hp
  refine ⟨_, _, ⟨ps, (sortProps str txt props).1, (sortProps str txt props).2⟩, by rw [addTrack]; simp only [trackSegs]; rw [h1], rfl, rfl, h2, ?_⟩
  intro p hp
  rw [fe] at h1
  refine ⟨by rw [key 0 vs ps h1 p hp]; rfl, ?_⟩
  obtain ⟨i, hi⟩ := List.mem_iff_getElem?.1 hp
  have hil : i < ps.length := by
    rcases Nat.lt_or_ge i ps.length with h | h
    · exact h
    · rw [List.getElem?_eq_none h] at hi; exact absurd hi (by simp)
  have hvi : vs[i]? = some vs[i] := List.getElem?_eq_getElem (by omega)
  exact (h3 i _ p hvi hi).noExts _ ele_valid

/-- A route with attributes and at least one vertex cannot be added: `TypeError`. -/
theorem C109_violated_routes (d : Doc (Option V)) {vs : List (List ℚ)} (hv : vs ≠ []) (props : Dict (Option V)) {t : Table String V} (hf : t.fields ≠ [])
    (ord : List String) : addRoute d (.multi vs props t ord) = .error .typeError := by
  obtain ⟨v, vs, rfl⟩ := List.exists_cons_of_ne_nil hv
  rw [addRoute]
  simp only [routePoints]
  rw [if_neg hf]

/-- C109 for routes without attributes: one route is added at the end, through the vertices in order, with the properties of the geometry. -/
theorem C109_routes_partial (d : Doc (Option V)) (vs : List (List ℚ)) (hv : ∀ v ∈ vs, v.length = 2 ∨ v.length = 3) (props : Dict (Option V))
    {t : Table String V} (hf : t.fields = []) (ord : List String) :
    ∃ d' r, addRoute d (.multi vs props t ord) = .ok d' ∧ d'.routes = d.routes ++ [r] ∧ d'.tracks = d.tracks ∧ d'.waypts = d.waypts ∧
      r.props = props ∧ r.exts = [] ∧ List.Forall₂ (fun v p => v[0]? = some p.lon ∧ v[1]? = some p.lat ∧ p.props = [] ∧ p.exts = []) vs r.pts := by
  have key : ∃ ps, routePoints (V := V) t.fields vs = .ok ps ∧
      List.Forall₂ (fun v p => v[0]? = some p.lon ∧ v[1]? = some p.lat ∧ p.props = [] ∧ p.exts = []) vs ps := by
    induction vs with
    | nil => exact ⟨[], rfl, .nil⟩
    | cons v vs ih =>
      obtain ⟨ps, h1, h2⟩ := ih fun w hw => hv w (by simp [hw])
      rcases v with _ | ⟨a, _ | ⟨b, rest⟩⟩
      · have := hv [] (by simp); simp at this
      · have := hv [a] (by simp); simp at this
      · exact ⟨⟨a, b, [], []⟩ :: ps, by rw [routePoints, if_pos hf, h1], .cons ⟨rfl, rfl, rfl, rfl⟩ h2⟩
  obtain ⟨ps, h1, h2⟩ := key
  exact ⟨{ d with routes := d.routes ++ [⟨ps, props, []⟩] }, ⟨ps, props, []⟩, by rw [addRoute, h1], rfl, rfl, rfl, rfl, rfl, h2⟩

/-- C109 for waypoints: the point is added at the end with its properties divided. -/
theorem C109_waypoints (d : Doc (Option V)) {v : List ℚ} (hv : v.length = 2 ∨ v.length = 3) (props : Dict (Option V)) :
    ∃ d' p, addWaypoint str txt d v props = .ok d' ∧ d'.waypts = d.waypts ++ [p] ∧ d'.tracks = d.tracks ∧ d'.routes = d.routes ∧
      v[0]? = some p.lon ∧ v[1]? = some p.lat ∧ Divided str txt props p.props p.exts := by
  rcases v with _ | ⟨a, _ | ⟨b, rest⟩⟩
  · simp at hv
  · simp at hv
  · exact ⟨_, _, rfl, rfl, rfl, rfl, rfl, rfl, sortProps_divided str txt props⟩

end

/-! ### Examples -/

/-- A multipoint with a known and an unknown field. -/
def exSrc : Src Int := .multi [[1, 2, 30], [3, 4, 50]] [("name", some 1), ("colour", some 2)] ⟨["time", "depth"], [[some 5, some 6], [none, some 7]]⟩ ["depth", "time"]

theorem exSrc_good : GoodSrc exSrc := by
  refine ⟨by unfold Keys; decide, ⟨by decide, by decide⟩, rfl, ⟨by decide, ?_⟩, by simp⟩
  intro f
  simp [or_comm]

example := C109_tracks_partial (fun _ => "x") (fun _ => (0 : Int)) (fun _ => 9) ⟨[], [], []⟩ [exSrc, exSrc] [("name", none)] (by simp [exSrc_good])

example := C109_violated_height (V := Int) (fun _ => "x") (fun _ => 0) (fun _ => 9) (t := ⟨["depth"], [[some 6], [some 7]]⟩) ⟨by decide, by decide⟩ (ord := ["depth"])
  ⟨by simp, by simp⟩ (by decide) (vs := [[1, 2, 30], [3, 4, 50]]) rfl (by simp) (props := []) (by simp [Keys]) ⟨[], [], []⟩

example := C109_violated_routes (V := Int) ⟨[], [], []⟩ (vs := [[1, 2]]) (by simp) [] (t := ⟨["depth"], [[some 6]]⟩) (by simp) ["depth"]

example := C109_routes_partial (V := Int) ⟨[], [], []⟩ [[1, 2], [3, 4]] (by simp) [("name", some 1)] (t := ⟨[], [[], []]⟩) rfl []

/-- A document with a track of one segment and a route. -/
def exDoc : Doc Int :=
  ⟨[], [⟨[⟨[⟨1, 2, [("time", 5)], [("depth", 6)]⟩, ⟨3, 4, [("time", 7)], []⟩], [("name", 1)], [("colour", 2)]⟩], [("name", 3)], []⟩],
    [⟨[⟨1, 2, [], []⟩], [("name", 4)], []⟩]⟩

theorem exDoc_tracks : ∀ x ∈ exDoc.tracks, GoodTrk x := by
  intro x hx
  obtain rfl := List.mem_singleton.1 hx
  refine ⟨⟨by unfold Keys; decide, by unfold Keys; decide, by decide⟩, ?_⟩
  intro s hs
  obtain rfl := List.mem_singleton.1 hs
  refine ⟨⟨by unfold Keys; decide, by unfold Keys; decide, by decide⟩, ?_⟩
  intro p hp
  simp only [List.mem_cons, List.not_mem_nil, or_false] at hp
  rcases hp with rfl | rfl
  · exact ⟨by unfold Keys; decide, by unfold Keys; decide, by decide⟩
  · exact ⟨by unfold Keys; decide, by unfold Keys; decide, by decide⟩

theorem exDoc_routes : ∀ x ∈ exDoc.routes, GoodRte x := by
  intro x hx
  obtain rfl := List.mem_singleton.1 hx
  refine ⟨⟨by unfold Keys; decide, by unfold Keys; decide, by decide⟩, ?_⟩
  intro p hp
  obtain rfl := List.mem_singleton.1 hp
  exact ⟨by unfold Keys; decide, by unfold Keys; decide, by decide⟩

/-- There are a way to write numbers and a way to read them back. -/
theorem exNumbers : ∃ (num : ℚ → String) (float : String → Option ℚ), ∀ q, float (num q) = some q := by
  have hinj : Function.Injective (fun q : ℚ => String.ofList (List.replicate (Encodable.encode q) 'a')) := by
    intro a b h
    have h1 := congrArg (fun s : String => s.toList.length) h
    simp at h1
    exact h1
  refine ⟨fun q : ℚ => String.ofList (List.replicate (Encodable.encode q) 'a'), fun s => open Classical in if h : ∃ q : ℚ, String.ofList (List.replicate (Encodable.encode q) 'a') = s then some h.choose else none, fun q => ?_⟩
  have h : ∃ q' : ℚ, String.ofList (List.replicate (Encodable.encode q') 'a') = String.ofList (List.replicate (Encodable.encode q) 'a') := ⟨q, rfl⟩
  beta_reduce
  rw [dif_pos h]
  exact congrArg some (hinj h.choose_spec)

example : ∃ (num : ℚ → String) (float : String → Option ℚ) (d' : Doc (Option String)),
    fromFile float id (asXml (fun _ => "x") num true true true exDoc) = .ok d' ∧ List.Forall₂ (SameTrk (fun _ => "x") id) exDoc.tracks d'.tracks := by
  obtain ⟨num, float, h⟩ := exNumbers
  obtain ⟨d', h1, h2, -⟩ := C108_tracks_and_routes_partial (fun _ => "x") id h true true true exDoc (Or.inr rfl) exDoc_tracks exDoc_routes
  exact ⟨num, float, d', h1, h2⟩

end Karta.Gpx
