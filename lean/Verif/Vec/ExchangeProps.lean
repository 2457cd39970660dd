import Verif.Vec.Exchange
import Verif.Table.Props

/-!
Properties C105 (the geo interface), C106 (GeoJSON) and C107 (exporting does not change the geometry).
-/

namespace Karta.Exch
open Karta Karta.Tab

variable {F A C U : Type} [DecidableEq F] [DecidableEq C]

/-! ### Specification -/

/-- The same ring, perhaps run through in the other direction from the same vertex. -/
def SameRing (r r' : List Coord) : Prop := r' = r ∨ ∃ v vs, r = v :: vs ∧ r' = v :: vs.reverse

/-- A writer of rings that keeps or reverses each. -/
def KeepsRings (wind : List Coord → List Coord) : Prop := ∀ r, wind r = r ∨ wind r = r.reverse

/-- The keys of a dictionary are distinct. -/
def Keys {W : Type} (d : List (F × W)) : Prop := (d.map Prod.fst).Nodup

/-- The geometry needs no conversion: it is in WGS84, or conversion is switched off and a name is given for its system. -/
def Ready (wgs84 : C) (g : Geom F A C) (urn : Option U) (force : Bool) : Prop := (force = true ∧ g.crs = wgs84) ∨ (force = false ∧ urn.isSome)

/-! ### Rings -/

theorem ringString_closed (v : Coord) (vs : List Coord) : ringString true (v :: vs ++ [v]) = v :: vs := by
  unfold ringString
  rw [if_pos]
  · exact List.dropLast_concat
  · have e : (v :: vs ++ [v]).getLast? = some v := List.getLast?_concat
    rw [e]; simp

theorem wind_closed {wind : List Coord → List Coord} (hw : KeepsRings wind) (v : Coord) (vs : List Coord) :
    SameRing (v :: vs) (ringString true (wind (v :: vs ++ [v]))) := by
  rcases hw (v :: vs ++ [v]) with h | h
  · rw [h, ringString_closed]; exact Or.inl rfl
  · have e : (v :: vs ++ [v]).reverse = v :: vs.reverse ++ [v] := by simp
    rw [h, e, ringString_closed]
    exact Or.inr ⟨v, vs, rfl, rfl⟩

theorem wind_length {wind : List Coord → List Coord} (hw : KeepsRings wind) (r : List Coord) : (wind r).length = r.length := by
  rcases hw r with h | h <;> rw [h]
  exact List.length_reverse

theorem closed_ok {r : List Coord} (h : r ≠ []) : ∃ v vs, r = v :: vs ∧ closed r = .ok (v :: vs ++ [v]) := by
  cases r with
  | nil => exact absurd rfl h
  | cons v vs => exact ⟨v, vs, rfl, rfl⟩

theorem closedAll_ok : ∀ (rs : List (List Coord)), (∀ r ∈ rs, r ≠ []) →
    closedAll rs = .ok (rs.map fun r => r ++ r.head?.toList) := by
  intro rs
  induction rs with
  | nil => intro _; rfl
  | cons r rs ih =>
    intro h
    obtain ⟨v, vs, rfl, hc⟩ := closed_ok (h r (by simp))
    rw [closedAll, hc]
    simp only
    rw [ih fun r hr => h r (by simp [hr])]
    rfl

theorem closedPolys_ok : ∀ (ps : List (List (List Coord))), (∀ p ∈ ps, ∀ r ∈ p, r ≠ []) →
    closedPolys ps = .ok (ps.map fun p => p.map fun r => r ++ r.head?.toList) := by
  intro ps
  induction ps with
  | nil => intro _; rfl
  | cons p ps ih =>
    intro h
    rw [closedPolys, closedAll_ok p (h p (by simp))]
    simp only
    rw [ih fun q hq => h q (by simp [hq])]
    rfl

theorem nested_ok {α : Type} {ps : List (List α)} (h : [] ∉ ps) : nested ps = .ok ps := by
  unfold nested
  rw [if_neg]
  rw [List.any_eq_true]
  rintro ⟨p, hp, he⟩
  rw [List.isEmpty_iff] at he
  exact h (he ▸ hp)

theorem nested_empty {α : Type} {ps : List (List α)} (h : [] ∈ ps) : nested ps = .error .indexError := by
  unfold nested
  rw [if_pos (List.any_eq_true.2 ⟨[], h, rfl⟩)]

theorem nested_eq {α : Type} {ps qs : List (List α)} (h : nested ps = .ok qs) : qs = ps := by
  unfold nested at h
  by_cases he : ps.any List.isEmpty
  · rw [if_pos he] at h; cases h
  · rw [if_neg he] at h; exact (Except.ok.inj h).symm

theorem not_nil_mem_map {α β : Type} {ps : List (List α)} (f : α → β) (h : [] ∉ ps) : [] ∉ ps.map fun p => p.map f := by
  rw [List.mem_map]
  rintro ⟨p, hp, he⟩
  rw [List.map_eq_nil_iff] at he
  exact h (he ▸ hp)

theorem subVertices_polygons (rs : List (List Coord)) : subVertices (rs.map Sub.polygon) = .ok rs := by
  induction rs with
  | nil => rfl
  | cons r rs ih => simp [subVertices, ih]

theorem subRings_polygons (rs : List (List Coord)) (h : ∀ r ∈ rs, r ≠ []) :
    subRings (rs.map Sub.polygon) = .ok (rs.map fun r => r ++ r.head?.toList) := by
  induction rs with
  | nil => rfl
  | cons r rs ih =>
    obtain ⟨v, vs, rfl, hc⟩ := closed_ok (h r (by simp))
    simp only [List.map_cons, subRings, hc]
    rw [ih fun r hr => h r (by simp [hr])]
    rfl

/-! ### Dictionaries -/

theorem keys_dictUpdate {W : Type} (d own : List (F × W)) (hd : Keys d) : Keys (dictUpdate d own) := by
  induction own generalizing d with
  | nil => exact hd
  | cons kv rest ih =>
    obtain ⟨k, v⟩ := kv
    rw [dictUpdate]
    by_cases hk : k ∈ d.map Prod.fst
    · rw [if_pos hk]
      apply ih
      have e : (d.map fun p => if p.1 = k then (k, v) else p).map Prod.fst = d.map Prod.fst := by
        rw [List.map_map]
        apply List.map_congr_left
        intro p _
        by_cases hp : p.1 = k
        · simp [hp]
        · simp [hp]
      unfold Keys
      rw [e]
      exact hd
    · rw [if_neg hk]
      apply ih
      unfold Keys
      rw [List.map_append, List.nodup_append]
      refine ⟨hd, by simp, ?_⟩
      intro a ha b hb
      simp only [List.map_cons, List.map_nil, List.mem_singleton] at hb
      rintro rfl
      rw [hb] at ha
      exact hk ha

theorem lookup_iff {W : Type} {d : List (F × W)} (hd : Keys d) (k : F) (v : W) : d.lookup k = some v ↔ (k, v) ∈ d := by
  induction d with
  | nil => simp
  | cons p d ih =>
    obtain ⟨k', v'⟩ := p
    have hd' : Keys d := (List.nodup_cons.1 hd).2
    have hk' : k' ∉ d.map Prod.fst := (List.nodup_cons.1 hd).1
    rw [List.lookup_cons]
    by_cases hk : k = k'
    · subst hk
      rw [beq_self_eq_true]
      simp only [Option.some.injEq, List.mem_cons, Prod.mk.injEq, true_and]
      constructor
      · intro h; exact Or.inl h.symm
      · rintro (h | h)
        · exact h.symm
        · exact absurd (List.mem_map.2 ⟨_, h, rfl⟩) hk'
    · rw [beq_eq_false_iff_ne.2 hk]
      simp only [List.mem_cons, Prod.mk.injEq]
      rw [ih hd']
      constructor
      · intro h; exact Or.inr h
      · rintro (h | h)
        · exact absurd h.1 hk
        · exact h

theorem keys_filter {W : Type} {d : List (F × W)} (hd : Keys d) (p : F × W → Bool) : Keys (d.filter p) :=
  (List.filter_sublist.map _).nodup hd

theorem divide_eq (n : Nat) (l : List (F × Val A)) :
    (divide n l).1 = l.filter (fun kv => decide (kv.2.len? = some n)) ∧ (divide n l).2 = l.filter (fun kv => !decide (kv.2.len? = some n)) := by
  induction l with
  | nil => exact ⟨rfl, rfl⟩
  | cons kv rest ih =>
    obtain ⟨k, v⟩ := kv
    obtain ⟨ih1, ih2⟩ := ih
    rw [divide]
    simp only
    cases hl : v.len? with
    | none => simp [hl, ih1, ih2]
    | some m =>
      by_cases hm : m = n
      · simp [hl, hm, ih1, ih2]
      · simp [hl, hm, ih1, ih2]

theorem dataDict_ok {t : Table F A} (h : t.WF) (ord : List F) (ho : ∀ f ∈ ord, f ∈ t.fields) :
    ∃ d, dataDict t ord = .ok d ∧ d.map Prod.fst = ord ∧ ∀ f v, (f, v) ∈ d → ∃ c, t.getfield f = .ok c ∧ v = .list c ∧ c.length = t.data.length := by
  induction ord with
  | nil => exact ⟨[], rfl, rfl, by simp⟩
  | cons f fs ih =>
    obtain ⟨d, h1, h2, h3⟩ := ih fun g hg => ho g (by simp [hg])
    obtain ⟨c, hc, hl, -⟩ := Table.getfield_spec h (ho f (by simp))
    refine ⟨(f, .list c) :: d, ?_, ?_, ?_⟩
    · rw [dataDict, hc]; simp only; rw [h1]
    · simp [h2]
    · intro g v hgv
      rcases List.mem_cons.1 hgv with hgv | hgv
      · obtain ⟨rfl, rfl⟩ := Prod.mk.inj hgv
        exact ⟨c, hc, rfl, hl⟩
      · exact h3 g v hgv

theorem lists_of (n : Nat) (l : List (F × Val A)) (h : ∀ kv ∈ l, ∃ c, kv.2 = .list c ∧ c.length = n) :
    ∃ d : List (F × List (Option A)), l = d.map (fun p => (p.1, .list p.2)) ∧ ∀ p ∈ d, p.2.length = n := by
  induction l with
  | nil => exact ⟨[], rfl, by simp⟩
  | cons kv l ih =>
    obtain ⟨d, h1, h2⟩ := ih fun x hx => h x (by simp [hx])
    obtain ⟨c, hc, hn⟩ := h kv (by simp)
    refine ⟨(kv.1, c) :: d, ?_, ?_⟩
    · rw [List.map_cons, ← h1, ← hc]
    · intro p hp
      rcases List.mem_cons.1 hp with rfl | hp
      · exact hn
      · exact h2 p hp

/-! ### What is exported -/

theorem export_ready {wgs84 : C} {g : Geom F A C} {urn : Option U} {force : Bool} (crs84 : U) (move : Coord → Coord) (ord : List F)
    (hr : Ready wgs84 g urn force) : ∃ u, asGeojson wgs84 crs84 move g urn force ord =
      match asNamedTuple g (some u) ord with
      | .error e => .error e
      | .ok (f, p) => .ok (f, { g with props := p }) := by
  rcases hr with ⟨h1, h2⟩ | ⟨h1, h2⟩
  · subst h1
    cases urn with
    | none => exact ⟨crs84, by simp [asGeojson, h2]; cases asNamedTuple g (some crs84) ord <;> rfl⟩
    | some u => exact ⟨u, by simp [asGeojson, h2]; cases asNamedTuple g (some u) ord <;> rfl⟩
  · subst h1
    obtain ⟨u, rfl⟩ := Option.isSome_iff_exists.1 h2
    exact ⟨u, by simp [asGeojson]; cases asNamedTuple g (some u) ord <;> rfl⟩

/-- What reading the export of a geometry in WGS84 comes down to. -/
theorem trip_ready {wgs84 : C} {g : Geom F A C} {urn : Option U} {force : Bool} (crs84 : U) (move : Coord → Coord) (wind : List Coord → List Coord)
    (drop : Bool) (ord : List F) (crs : C) (hr : Ready wgs84 g urn force) {gj : GJ} (hg : toGJ g.shape = .ok gj) {d : List (F × Val A)}
    (hd : (if g.shape.multi then dataDict g.data ord else .ok []) = .ok d) :
    ∃ u : U, geojsonTrip wgs84 crs84 move wind drop g urn force ord crs = readFeature drop (wire wind ⟨gj, dictUpdate g.props d, u⟩) crs := by
  obtain ⟨u, hu⟩ := export_ready crs84 move ord hr
  refine ⟨u, ?_⟩
  have e : asNamedTuple g (some u) ord = .ok (⟨gj, dictUpdate g.props d, u⟩, dictUpdate g.props d) := by
    unfold asNamedTuple
    simp only
    rw [hg]
    simp only
    rw [hd]
  rw [e] at hu
  unfold geojsonTrip
  rw [hu]

/-! ### C106: GeoJSON -/

/-- C106 for points with two or three coordinates and for lines: writing and reading back gives the same vertices and properties. -/
theorem C106_points_and_lines_partial {wgs84 : C} {g : Geom F A C} {urn : Option U} {force : Bool} (crs84 : U) (move : Coord → Coord)
    (wind : List Coord → List Coord) (drop : Bool) (ord : List F) (crs : C) (hr : Ready wgs84 g urn force)
    (hs : (∃ v : Coord, g.shape = .point v ∧ (v.length = 2 ∨ v.length = 3)) ∨ ∃ vs, g.shape = .line vs) :
    ∃ g', geojsonTrip wgs84 crs84 move wind drop g urn force ord crs = .ok g' ∧ g'.shape = g.shape ∧ g'.props = g.props ∧ g'.crs = crs := by
  rcases hs with ⟨v, hv, hl⟩ | ⟨vs, hv⟩
  · obtain ⟨u, hu⟩ := trip_ready (urn := urn) (gj := .point v) (d := []) crs84 move wind drop ord crs hr (by rw [hv]; rfl) (by rw [hv]; rfl)
    refine ⟨⟨.point v, g.props, ⟨[], []⟩, crs⟩, ?_, hv.symm, rfl, rfl⟩
    rw [hu]
    simp only [wire, readFeature, dictUpdate]
    rw [if_pos hl]
  · obtain ⟨u, hu⟩ := trip_ready (urn := urn) (gj := .lineString vs) (d := []) crs84 move wind drop ord crs hr (by rw [hv]; rfl) (by rw [hv]; rfl)
    refine ⟨⟨.line vs, g.props, ⟨[], []⟩, crs⟩, ?_, hv.symm, rfl, rfl⟩
    rw [hu]
    rfl

/-- C106 for polygons without holes: the ring comes back, perhaps run through the other way.  Missing: polygons with holes, see
`C106_violated_holes`. -/
theorem C106_polygons_partial {wgs84 : C} {g : Geom F A C} {urn : Option U} {force : Bool} (crs84 : U) (move : Coord → Coord)
    {wind : List Coord → List Coord} (hw : KeepsRings wind) (ord : List F) (crs : C) (hr : Ready wgs84 g urn force)
    {ring : List Coord} (hne : ring ≠ []) (hs : g.shape = .polygon ring []) :
    ∃ g' ring', geojsonTrip wgs84 crs84 move wind true g urn force ord crs = .ok g' ∧ g'.shape = .polygon ring' [] ∧ SameRing ring ring' ∧
      g'.props = g.props ∧ g'.crs = crs := by
  obtain ⟨v, vs, rfl, hc⟩ := closed_ok hne
  obtain ⟨u, hu⟩ := trip_ready (urn := urn) (gj := .polygon [v :: vs ++ [v]]) (d := []) crs84 move wind true ord crs hr
    (by rw [hs]; simp only [toGJ, hc]; rfl) (by rw [hs]; rfl)
  refine ⟨_, _, hu.trans rfl, rfl, wind_closed hw v vs, rfl, rfl⟩

/-- A polygon with holes comes back with holes that are not polygons: whatever test of rings is used, asking whether it contains a point of
the outer ring raises `AttributeError`, and so does exporting it again. -/
theorem C106_violated_holes {wgs84 : C} {g : Geom F A C} {urn : Option U} {force : Bool} (crs84 : U) (move : Coord → Coord)
    (wind : List Coord → List Coord) (drop : Bool) (ord : List F) (crs : C) (hr : Ready wgs84 g urn force)
    {ring : List Coord} (hne : ring ≠ []) {holes : List (List Coord)} (hh : holes ≠ []) (hs : g.shape = .polygon ring (holes.map .polygon)) :
    ∃ g' ring' subs', geojsonTrip wgs84 crs84 move wind drop g urn force ord crs = .ok g' ∧ g'.shape = .polygon ring' subs' ∧
      (∀ inRing : List Coord → Bool, inRing ring' = true → polygonContains inRing ring' subs' = .error .attributeError) ∧
      (ring' ≠ [] → ∀ (urn' : Option U) (ord' : List F), urn'.isSome → ∀ wgs : C, wgs = crs →
        asGeojson wgs crs84 move g' urn' true ord' = .error .attributeError) := by
  obtain ⟨v, vs, rfl, hc⟩ := closed_ok hne
  obtain ⟨u, hu⟩ := trip_ready (urn := urn) (gj := .polygon ((v :: vs ++ [v]) :: holes)) (d := []) crs84 move wind drop ord crs hr
    (by rw [hs]; simp only [toGJ, hc, subVertices_polygons]) (by rw [hs]; rfl)
  obtain ⟨h, hs', rfl⟩ := List.exists_cons_of_ne_nil hh
  refine ⟨_, _, _, hu.trans rfl, rfl, ?_, ?_⟩
  · intro inRing hin
    unfold polygonContains
    rw [if_pos hin]
    rfl
  · intro hr' urn' ord' hu' wgs hw
    obtain ⟨u', rfl⟩ := Option.isSome_iff_exists.1 hu'
    obtain ⟨w, ws, hw1, hw2⟩ := closed_ok hr'
    simp only [asGeojson, Option.isNone_some, Bool.and_false, Bool.false_eq_true, if_false, hw, ne_eq, not_true, decide_false, asNamedTuple,
      toGJ, hw2]
    rfl

/-- Exporting a polygon that has to be converted to WGS84 drops its holes. -/
theorem C106_violated_converted_holes (wgs84 : C) (crs84 : U) (move : Coord → Coord) (wind : List Coord → List Coord) (drop : Bool)
    (g : Geom F A C) (urn : Option U) (ord : List F) (crs : C) {ring : List Coord} (hne : ring ≠ []) (subs : List Sub)
    (hs : g.shape = .polygon ring subs) (hc : g.crs ≠ wgs84) :
    ∃ g' ring', geojsonTrip wgs84 crs84 move wind drop g urn true ord crs = .ok g' ∧ g'.shape = .polygon ring' [] := by
  obtain ⟨v, vs, rfl, hcl⟩ := closed_ok hne
  cases urn <;>
  exact ⟨_, _, by
    simp only [geojsonTrip, asGeojson, Option.isNone_none, Option.isNone_some, Bool.and_self, Bool.and_false, Bool.false_eq_true, if_true, if_false,
      ne_eq, hc, not_false_eq_true, decide_true, asNamedTuple, hs, moved, toGJ, List.map_cons, closed, subVertices, Shape.multi, wire, readFeature,
      List.map_nil]; rfl, rfl⟩

/-- Without conversion and without a name for the coordinate system, every export raises `NameError`. -/
theorem C106_violated_no_urn (wgs84 : C) (crs84 : U) (move : Coord → Coord) (g : Geom F A C) (ord : List F) :
    asGeojson wgs84 crs84 move g (none : Option U) false ord = .error .nameError := by
  simp [asGeojson, asNamedTuple]

/-- The rings of a multipolygon come back with one vertex more than they had. -/
theorem C106_violated_multipolygon {wgs84 : C} {g : Geom F A C} {urn : Option U} {force : Bool} (crs84 : U) (move : Coord → Coord)
    {wind : List Coord → List Coord} (hw : KeepsRings wind) (drop : Bool) (ord : List F) (crs : C) (hr : Ready wgs84 g urn force)
    {vs : List (List (List Coord))} (hp : [] ∉ vs) (hne : ∀ p ∈ vs, ∀ r ∈ p, r ≠ []) (hs : g.shape = .multipolygon vs) {g' : Geom F A C}
    (h : geojsonTrip wgs84 crs84 move wind drop g urn force ord crs = .ok g') :
    ∃ vs', g'.shape = .multipolygon vs' ∧ vs'.map (fun p => p.map List.length) = vs.map fun p => p.map fun r => r.length + 1 := by
  have e : toGJ g.shape = .ok (.multiPolygon (vs.map fun p => p.map fun r => r ++ r.head?.toList)) := by
    rw [hs]; simp only [toGJ, closedPolys_ok vs hne, nested_ok (not_nil_mem_map _ hp)]
  cases hd : (if g.shape.multi then dataDict g.data ord else .ok []) with
  | error er =>
    exfalso
    obtain ⟨u, hu⟩ := export_ready crs84 move ord hr
    unfold geojsonTrip at h
    rw [hu] at h
    simp only [asNamedTuple, e, hd] at h
    exact absurd h (by simp)
  | ok d =>
    obtain ⟨u, hu⟩ := trip_ready crs84 move wind drop ord crs hr e hd
    rw [hu] at h
    simp only [wire, readFeature, readMulti] at h
    cases ht : multipartTable (Shape.parts (.multipolygon ((vs.map fun p => p.map fun r => r ++ r.head?.toList).map fun p => p.map wind)))
        (.dict ((divide (Shape.parts (.multipolygon ((vs.map fun p => p.map fun r => r ++ r.head?.toList).map fun p => p.map wind)))
          (dictUpdate g.props d)).1.map fun kv => (kv.1, toCol kv.2))) with
    | error er => rw [ht] at h; exact absurd h (by simp)
    | ok t =>
      rw [ht] at h
      simp only [Except.ok.injEq] at h
      subst h
      refine ⟨_, rfl, ?_⟩
      simp only [List.map_map]
      apply List.map_congr_left
      intro p hp
      simp only [Function.comp, List.map_map]
      apply List.map_congr_left
      intro r hr
      simp only [Function.comp, wind_length hw, List.length_append]
      obtain ⟨v, vs, rfl, -⟩ := closed_ok (hne p hp r hr)
      simp

/-- The attributes of a multipart geometry with well-formed data come back from the dictionary they were written to. -/
theorem read_back (n : Nat) {props : List (F × Val A)} {t : Table F A} {ord : List F} {d : List (F × Val A)} (hk : Keys props) (ht : t.WF)
    (hn : t.data.length = n) (ho : IsOrder ord t.fields) (hd : dataDict t ord = .ok d)
    (hl : ∀ kv ∈ props, kv.1 ∉ t.fields → kv.2.len? ≠ some n) :
    ∃ t', multipartTable n (.dict ((divide n (dictUpdate props d)).1.map fun kv => (kv.1, toCol kv.2))) = .ok t' ∧ t'.WF ∧
      t'.data.length = n ∧ (∀ f, f ∈ t'.fields ↔ f ∈ t.fields) ∧ (∀ f ∈ t.fields, t'.getfield f = t.getfield f) ∧
      ∀ k ∉ t.fields, (divide n (dictUpdate props d)).2.lookup k = props.lookup k := by
  obtain ⟨d0, e0, k0, m0⟩ := dataDict_ok ht ord (fun f hf => (ho.2 f).1 hf)
  obtain rfl : d = d0 := by rw [hd] at e0; exact Except.ok.inj e0
  have hkd : Keys d := by unfold Keys; rw [k0]; exact ho.1
  have hkP := keys_dictUpdate props d hk
  have look := fun k => lookup_dictUpdate (d := props) (own := d) (k := k) hkd
  have dmem : ∀ f, f ∈ t.fields → ∃ c, t.getfield f = .ok c ∧ c.length = n ∧ d.lookup f = some (.list c) := by
    intro f hf
    have : f ∈ d.map Prod.fst := by rw [k0]; exact (ho.2 f).2 hf
    obtain ⟨p, hp, rfl⟩ := List.mem_map.1 this
    obtain ⟨c, h1, h2, h3⟩ := m0 p.1 p.2 hp
    exact ⟨c, h1, h3.trans hn, by rw [lookup_iff hkd, ← h2]; exact hp⟩
  have dnone : ∀ f, f ∉ t.fields → d.lookup f = none := by
    intro f hf
    cases h : d.lookup f with
    | none => rfl
    | some v =>
      exact absurd ((ho.2 f).1 (by rw [← k0]; exact List.mem_map.2 ⟨_, (lookup_iff hkd f v).1 h, rfl⟩)) hf
  have inF : ∀ f ∈ t.fields, ∃ c, t.getfield f = .ok c ∧ c.length = n ∧ (dictUpdate props d).lookup f = some (.list c) := by
    intro f hf
    obtain ⟨c, h1, h2, h3⟩ := dmem f hf
    exact ⟨c, h1, h2, by rw [look f, updatedValue, h3]⟩
  have outF : ∀ f, f ∉ t.fields → (dictUpdate props d).lookup f = props.lookup f := by
    intro f hf
    rw [look f, updatedValue, dnone f hf]
  obtain ⟨e1, e2⟩ := divide_eq n (dictUpdate props d)
  obtain ⟨dd, h1, h2⟩ := lists_of n (divide n (dictUpdate props d)).1 (by
    intro kv hkv
    rw [e1, List.mem_filter] at hkv
    obtain ⟨hm, hlen⟩ := hkv
    have hlen := of_decide_eq_true hlen
    have hlook := (lookup_iff hkP kv.1 kv.2).2 hm
    by_cases hf : kv.1 ∈ t.fields
    · obtain ⟨c, -, hc, h3⟩ := inF kv.1 hf
      rw [h3] at hlook
      exact ⟨c, (Option.some.inj hlook).symm, hc⟩
    · rw [outF kv.1 hf, lookup_iff hk] at hlook
      exact absurd hlen (hl _ hlook hf))
  have hkeys : Keys (divide n (dictUpdate props d)).1 := by rw [e1]; exact keys_filter hkP _
  have hkdd : (dd.map Prod.fst).Nodup := by
    have : (divide n (dictUpdate props d)).1.map Prod.fst = dd.map Prod.fst := by
      rw [h1, List.map_map]; rfl
    rw [← this]; exact hkeys
  obtain ⟨t', ht1, ht2, ht3, ht4, ht5⟩ := C57_one_row_per_part_partial n dd hkdd h2
  have ddmem : ∀ f c, (f, c) ∈ dd ↔ f ∈ t.fields ∧ t.getfield f = .ok c := by
    intro f c
    have : (f, c) ∈ dd ↔ (f, Val.list c) ∈ (divide n (dictUpdate props d)).1 := by
      rw [h1, List.mem_map]
      constructor
      · intro h; exact ⟨_, h, rfl⟩
      · rintro ⟨q, hq, he⟩
        obtain ⟨he1, he2⟩ := Prod.mk.inj he
        obtain rfl := Val.list.inj he2
        obtain rfl := he1
        exact hq
    rw [this, e1, List.mem_filter, ← lookup_iff hkP]
    constructor
    · rintro ⟨h, h'⟩
      by_cases hf : f ∈ t.fields
      · obtain ⟨c', h1', -, h3'⟩ := inF f hf
        rw [h3'] at h
        obtain rfl := Val.list.inj (Option.some.inj h)
        exact ⟨hf, h1'⟩
      · rw [outF f hf, lookup_iff hk] at h
        exact absurd (of_decide_eq_true h') (hl _ h hf)
    · rintro ⟨hf, hc⟩
      obtain ⟨c', h1', h2', h3'⟩ := inF f hf
      rw [hc] at h1'
      obtain rfl := Except.ok.inj h1'
      exact ⟨h3', decide_eq_true (by simp [Val.len?, h2'])⟩
  refine ⟨t', ?_, ht2, ht3, ?_, ?_, ?_⟩
  · rw [h1, List.map_map]
    exact ht1
  · intro f
    rw [ht4, List.mem_map]
    constructor
    · rintro ⟨⟨f', c⟩, h, rfl⟩
      exact ((ddmem _ _).1 h).1
    · intro hf
      obtain ⟨c, hc, -⟩ := inF f hf
      exact ⟨(f, c), (ddmem f c).2 ⟨hf, hc⟩, rfl⟩
  · intro f hf
    obtain ⟨c, hc, -⟩ := inF f hf
    rw [hc]
    exact ht5 (f, c) ((ddmem f c).2 ⟨hf, hc⟩)
  · intro k hk'
    rw [e2]
    have hkn : Keys ((dictUpdate props d).filter fun kv => !decide (kv.2.len? = some n)) := keys_filter hkP _
    apply Option.ext
    intro v
    rw [lookup_iff hkn, List.mem_filter, ← lookup_iff hkP, outF k hk']
    constructor
    · exact fun h => h.1
    · intro h
      exact ⟨h, by simpa using hl _ ((lookup_iff hk k v).1 h) hk'⟩

/-- C106 for multipoints, and multilines of parts that are not empty, with a row of data for each part, none of whose properties has as many entries as there are parts: the
same vertices, the same fields with the same columns, and the same other properties come back. -/
theorem C106_multiparts_partial {wgs84 : C} {g : Geom F A C} {urn : Option U} {force : Bool} (crs84 : U) (move : Coord → Coord)
    (wind : List Coord → List Coord) (drop : Bool) {ord : List F} (crs : C) (hr : Ready wgs84 g urn force)
    (hs : (∃ vs, g.shape = .multipoint vs) ∨ ∃ vs, g.shape = .multiline vs ∧ [] ∉ vs) (hk : Keys g.props) (ht : g.data.WF)
    (hn : g.data.data.length = g.shape.parts) (ho : IsOrder ord g.data.fields)
    (hl : ∀ kv ∈ g.props, kv.1 ∉ g.data.fields → kv.2.len? ≠ some g.shape.parts) :
    ∃ g', geojsonTrip wgs84 crs84 move wind drop g urn force ord crs = .ok g' ∧ g'.shape = g.shape ∧ g'.crs = crs ∧
      (∀ f, f ∈ g'.data.fields ↔ f ∈ g.data.fields) ∧ (∀ f ∈ g.data.fields, g'.data.getfield f = g.data.getfield f) ∧
      ∀ k ∉ g.data.fields, g'.props.lookup k = g.props.lookup k := by
  obtain ⟨d, hd, -, -⟩ := dataDict_ok ht ord (fun f hf => (ho.2 f).1 hf)
  obtain ⟨t', h1, -, -, h4, h5, h6⟩ := read_back g.shape.parts hk ht hn ho hd hl
  rcases hs with ⟨vs, hv⟩ | ⟨vs, hv, hp⟩
  · obtain ⟨u, hu⟩ := trip_ready (urn := urn) (gj := .multiPoint vs) (d := d) crs84 move wind drop ord crs hr (by rw [hv]; rfl) (by rw [hv]; exact hd)
    refine ⟨⟨g.shape, (divide g.shape.parts (dictUpdate g.props d)).2, t', crs⟩, ?_, rfl, rfl, h4, h5, h6⟩
    rw [hu]
    simp only [wire, readFeature, readMulti]
    rw [hv] at h1
    rw [h1, hv]
  · obtain ⟨u, hu⟩ := trip_ready (urn := urn) (gj := .multiLineString vs) (d := d) crs84 move wind drop ord crs hr
      (by rw [hv, toGJ, nested_ok hp]) (by rw [hv]; exact hd)
    refine ⟨⟨g.shape, (divide g.shape.parts (dictUpdate g.props d)).2, t', crs⟩, ?_, rfl, rfl, h4, h5, h6⟩
    rw [hu]
    simp only [wire, readFeature, readMulti]
    rw [hv] at h1
    rw [h1, hv]

/-- A property of a multipoint with as many entries as there are parts is not a property any more when the file is read. -/
theorem C106_violated_same_length {wgs84 : C} {g : Geom F A C} {urn : Option U} {force : Bool} (crs84 : U) (move : Coord → Coord)
    (wind : List Coord → List Coord) (drop : Bool) {ord : List F} (crs : C) (hr : Ready wgs84 g urn force) {vs : List Coord}
    (hs : g.shape = .multipoint vs) (hk : Keys g.props) (ht : g.data.WF) (ho : IsOrder ord g.data.fields) {k : F} {xs : List (Option A)}
    (hp : g.props.lookup k = some (.list xs)) (hkf : k ∉ g.data.fields) (hx : xs.length = vs.length) {g' : Geom F A C}
    (h : geojsonTrip wgs84 crs84 move wind drop g urn force ord crs = .ok g') : g'.props.lookup k = none := by
  obtain ⟨d, hd, hd2, -⟩ := dataDict_ok ht ord (fun f hf => (ho.2 f).1 hf)
  obtain ⟨u, hu⟩ := trip_ready (urn := urn) (gj := .multiPoint vs) (d := d) crs84 move wind drop ord crs hr (by rw [hs]; rfl) (by rw [hs]; exact hd)
  rw [hu] at h
  simp only [wire, readFeature, readMulti] at h
  have hkd : Keys d := by unfold Keys; rw [hd2]; exact ho.1
  have hkP := keys_dictUpdate g.props d hk
  have hlook : (dictUpdate g.props d).lookup k = some (.list xs) := by
    rw [lookup_dictUpdate _ _ hkd, updatedValue]
    cases hc : d.lookup k with
    | none => exact hp
    | some v => exact absurd ((ho.2 k).1 (by rw [← hd2]; exact List.mem_map.2 ⟨_, (lookup_iff hkd k v).1 hc, rfl⟩)) hkf
  have key : (divide vs.length (dictUpdate g.props d)).2.lookup k = none := by
    rw [(divide_eq vs.length (dictUpdate g.props d)).2]
    cases hc : ((dictUpdate g.props d).filter fun kv => !decide (kv.2.len? = some vs.length)).lookup k with
    | none => rfl
    | some v =>
      rw [lookup_iff (keys_filter hkP _), List.mem_filter, ← lookup_iff hkP, hlook] at hc
      obtain ⟨h1, h2⟩ := hc
      obtain rfl := Option.some.inj h1
      simp [Val.len?, hx] at h2
  cases hm : multipartTable (Shape.parts (.multipoint vs)) (.dict ((divide (Shape.parts (.multipoint vs)) (dictUpdate g.props d)).1.map
      fun kv => (kv.1, toCol kv.2))) with
  | error er => rw [hm] at h; exact absurd h (by simp)
  | ok t =>
    rw [hm] at h
    simp only [Except.ok.injEq] at h
    subst h
    exact key

/-! ### C107: exporting leaves the geometry as it was -/

/-- C107 for points, lines and polygons. -/
theorem C107_single_partial {wgs84 : C} {crs84 : U} {move : Coord → Coord} {g g' : Geom F A C} {urn : Option U} {force : Bool} {ord : List F}
    {f : Feature F A U} (hs : g.shape.multi = false) (h : asGeojson wgs84 crs84 move g urn force ord = .ok (f, g')) : g' = g := by
  have key : ∀ geo : Geom F A C, geo.shape.multi = false → geo.props = g.props → ∀ urn, ∀ q, asNamedTuple geo urn ord = Except.ok q → q.2 = g.props ∧ (q.1 : Feature F A U).props = g.props := by
    intro geo hm hp urn q hq
    unfold asNamedTuple at hq
    cases urn with
    | none => exact absurd hq (by simp)
    | some u =>
      simp only at hq
      cases ht : toGJ geo.shape with
      | error e => rw [ht] at hq; exact absurd hq (by simp)
      | ok gj =>
        rw [ht, hm] at hq
        simp only [Bool.false_eq_true, if_false, Except.ok.injEq] at hq
        subst hq
        exact ⟨hp, hp⟩
  have hmv : (moved move g.shape).multi = false := by
    cases hg : g.shape <;> rw [hg] at hs <;> first | rfl | exact absurd hs (by simp [Shape.multi])
  unfold asGeojson at h
  simp only at h
  by_cases hc : (force && decide (g.crs ≠ wgs84)) = true
  · rw [if_pos hc] at h
    cases ha : asNamedTuple (U := U) ({ g with shape := moved move g.shape, crs := wgs84 } : Geom F A C) (if (force && urn.isNone) = true then some crs84 else urn) ord with
    | error e => rw [ha] at h; exact absurd h (by simp)
    | ok q =>
      rw [ha] at h
      simp only [Except.ok.injEq, Prod.mk.injEq] at h
      rw [← h.2, (key ({ g with shape := moved move g.shape, crs := wgs84 } : Geom F A C) hmv rfl _ q ha).1]
  · rw [if_neg hc] at h
    cases ha : asNamedTuple (U := U) g (if (force && urn.isNone) = true then some crs84 else urn) ord with
    | error e => rw [ha] at h; exact absurd h (by simp)
    | ok q =>
      rw [ha] at h
      simp only [Except.ok.injEq, Prod.mk.injEq] at h
      rw [← h.2, (key _ hs rfl _ q ha).1]

/-- The properties of the geometry after a successful export. -/
theorem export_props {wgs84 : C} {crs84 : U} {move : Coord → Coord} {g g' : Geom F A C} {urn : Option U} {force : Bool} {ord : List F}
    {f : Feature F A U} (hs : g.shape.multi = true) (h : asGeojson wgs84 crs84 move g urn force ord = .ok (f, g')) :
    ∃ d, dataDict g.data ord = .ok d ∧ g' = { g with props := dictUpdate g.props d } := by
  have key : ∀ geo : Geom F A C, geo.shape.multi = true → geo.props = g.props → geo.data = g.data → ∀ urn, ∀ q : Feature F A U × _, asNamedTuple geo urn ord = .ok q →
      ∃ d, dataDict g.data ord = .ok d ∧ q.2 = dictUpdate g.props d := by
    intro geo hm hp hdt urn q hq
    unfold asNamedTuple at hq
    cases urn with
    | none => exact absurd hq (by simp)
    | some u =>
      simp only at hq
      cases ht : toGJ geo.shape with
      | error e => rw [ht] at hq; exact absurd hq (by simp)
      | ok gj =>
        rw [ht, hm] at hq
        simp only [if_true, hdt] at hq
        cases hd : dataDict g.data ord with
        | error e => rw [hd] at hq; exact absurd hq (by simp)
        | ok d =>
          rw [hd] at hq
          simp only [Except.ok.injEq] at hq
          subst hq
          exact ⟨d, rfl, by rw [hp]⟩
  have hmv : (moved move g.shape).multi = true := by
    cases hg : g.shape <;> rw [hg] at hs <;> first | rfl | exact absurd hs (by simp [Shape.multi])
  unfold asGeojson at h
  simp only at h
  by_cases hc : (force && decide (g.crs ≠ wgs84)) = true
  · rw [if_pos hc] at h
    cases ha : asNamedTuple (U := U) ({ g with shape := moved move g.shape, crs := wgs84 } : Geom F A C) (if (force && urn.isNone) = true then some crs84 else urn) ord with
    | error e => rw [ha] at h; exact absurd h (by simp)
    | ok q =>
      rw [ha] at h
      simp only [Except.ok.injEq, Prod.mk.injEq] at h
      obtain ⟨d, h1, h2⟩ := key ({ g with shape := moved move g.shape, crs := wgs84 } : Geom F A C) hmv rfl rfl _ q ha
      exact ⟨d, h1, by rw [← h.2, h2]⟩
  · rw [if_neg hc] at h
    cases ha : asNamedTuple (U := U) g (if (force && urn.isNone) = true then some crs84 else urn) ord with
    | error e => rw [ha] at h; exact absurd h (by simp)
    | ok q =>
      rw [ha] at h
      simp only [Except.ok.injEq, Prod.mk.injEq] at h
      obtain ⟨d, h1, h2⟩ := key _ hs rfl rfl _ q ha
      exact ⟨d, h1, by rw [← h.2, h2]⟩

/-- C107 for multipart geometries without data fields. -/
theorem C107_no_fields_partial {wgs84 : C} {crs84 : U} {move : Coord → Coord} {g g' : Geom F A C} {urn : Option U} {force : Bool} {ord : List F}
    {f : Feature F A U} (hs : g.shape.multi = true) (hf : g.data.fields = []) (ho : IsOrder ord g.data.fields)
    (h : asGeojson wgs84 crs84 move g urn force ord = .ok (f, g')) : g' = g := by
  obtain ⟨d, hd, rfl⟩ := export_props hs h
  have : ord = [] := by
    cases ord with
    | nil => rfl
    | cons a as => exact absurd ((ho.2 a).1 (by simp)) (by rw [hf]; simp)
  subst this
  obtain rfl : [] = d := by simpa [dataDict] using hd
  rfl

theorem lookup_scalars (p : List (F × Option A)) (k : F) :
    (p.map fun kv => (kv.1, Val.scalar kv.2)).lookup k = (p.lookup k).map Val.scalar := by
  induction p with
  | nil => rfl
  | cons x xs ih =>
    rw [List.map_cons, List.lookup_cons, List.lookup_cons]
    cases k == x.1 with
    | true => rfl
    | false => exact ih

/-- A successful export of a multipart geometry gives it every data field as a property holding the whole column; from then on each of its
parts has the whole column where it had its own value. -/
theorem C107_violated_multiparts {wgs84 : C} {crs84 : U} {move : Coord → Coord} {g g' : Geom F A C} {urn : Option U} {force : Bool} {ord : List F}
    {f : Feature F A U} (hs : g.shape.multi = true) (ht : g.data.WF) (ho : IsOrder ord g.data.fields) (hk : Keys g.props)
    (h : asGeojson wgs84 crs84 move g urn force ord = .ok (f, g')) {k : F} (hkf : k ∈ g.data.fields) (hp : g.props.lookup k = none) :
    ∃ c, g.data.getfield k = .ok c ∧ g'.props.lookup k = some (.list c) ∧
      ∀ (i : Nat) (hi : i < c.length), ∃ p p', partProps g i = .ok p ∧ p.lookup k = some (.scalar c[i]) ∧
        partProps g' i = .ok p' ∧ p'.lookup k = some (.list c) := by
  obtain ⟨d0, hd, rfl⟩ := export_props hs h
  obtain ⟨d, e, hd2, hd3⟩ := dataDict_ok ht ord (fun f hf => (ho.2 f).1 hf)
  obtain rfl : d0 = d := by rw [hd] at e; exact Except.ok.inj e
  have hkd : Keys d0 := by unfold Keys; rw [hd2]; exact ho.1
  have hmem : k ∈ d0.map Prod.fst := by rw [hd2]; exact (ho.2 k).2 hkf
  obtain ⟨q, hq, rfl⟩ := List.mem_map.1 hmem
  obtain ⟨c, hc, hcv, hcl⟩ := hd3 q.1 q.2 hq
  have hl : (dictUpdate g.props d0).lookup q.1 = some (.list c) := by
    rw [lookup_dictUpdate _ _ hkd, updatedValue, (lookup_iff hkd q.1 q.2).2 hq, hcv]
  refine ⟨c, hc, hl, ?_⟩
  intro i hi
  rw [hcl] at hi
  have hrow : Py.index? g.data.data (i : Int) = some g.data.data[i] := by simp [Py.index?, hi]
  have hlen : g.data.data[i].length = g.data.fields.length := ht.rows _ (List.getElem_mem _)
  have hget : g.data.get (i : Int) = .ok (g.data.fields.zip g.data.data[i]) := by
    simp only [Table.get, hrow]
    rw [if_neg (by omega)]
  obtain ⟨pp, hpp1, hpp2⟩ := C58_part_attributes_partial g.data ht [] (by simp) i hi
  have hcell : (g.data.fields.zip g.data.data[i]).lookup q.1 = g.data.cell i q.1 := by
    simp only [partProperties, hget] at hpp1
    by_cases h0 : g.data.len ≠ 0
    · have := hpp2 q.1
      simp only [List.lookup_nil] at this
      rw [← this]
      simp [Table.len, hi] at hpp1
      have h1 : ¬ g.data.data = [] := by intro h; rw [h] at hi; simp at hi
      simp [h1, dictUpdate] at hpp1
      rw [hpp1]
    · exfalso; apply h0; simp only [Table.len]; omega
  obtain ⟨c', h1, h2, h3⟩ := Table.getfield_spec ht hkf
  have hcc : c' = c := by rw [hc] at h1; exact (Except.ok.inj h1).symm
  subst hcc
  refine ⟨_, _, by rw [partProps, hget], ?_, by rw [partProps]; simp only; rw [hget], ?_⟩
  · rw [lookup_dictUpdate _ _ hk, updatedValue, hp]
    simp only
    rw [lookup_scalars, hcell, ← h3 i, List.getElem?_eq_getElem (by omega)]
    rfl
  · rw [lookup_dictUpdate _ _ (keys_dictUpdate _ _ hk), updatedValue, hl]

/-! ### C105: the geo interface -/

/-- C105 for points, lines, multipoints and multilines of parts that are not empty: the vertices come back. -/
theorem C105_vertices_partial (drop : Bool) (cartesian : C) (key : F) (proj4 : C → Val A) (g : Geom F A C)
    (hs : (∃ v : Coord, g.shape = .point v ∧ (v.length = 2 ∨ v.length = 3)) ∨ (∃ vs, g.shape = .line vs) ∨ (∃ vs, g.shape = .multipoint vs) ∨
      ∃ vs, g.shape = .multiline vs ∧ [] ∉ vs) :
    ∃ g', interfaceTrip drop cartesian key proj4 g = .ok g' ∧ g'.shape = g.shape := by
  rcases hs with ⟨v, hv, hl⟩ | ⟨vs, hv⟩ | ⟨vs, hv⟩ | ⟨vs, hv, hp⟩
  · exact ⟨⟨.point v, dictUpdate g.props [(key, proj4 g.crs)], ⟨[], []⟩, cartesian⟩,
      by simp only [interfaceTrip, geoInterface, geomdict, hv, fromShape]; rw [if_pos hl], hv.symm⟩
  · exact ⟨_, by simp only [interfaceTrip, geoInterface, geomdict, hv, fromShape]; rfl, hv.symm⟩
  · exact ⟨_, by simp only [interfaceTrip, geoInterface, geomdict, hv, fromShape]; rfl, hv.symm⟩
  · exact ⟨_, by simp only [interfaceTrip, geoInterface, geomdict, hv, nested_ok hp, fromShape]; rfl, hv.symm⟩

/-- C105 for polygons: the outer ring and the holes come back, if the closing vertices are dropped. -/
theorem C105_polygons_partial (cartesian : C) (key : F) (proj4 : C → Val A) (g : Geom F A C) {ring : List Coord} {holes : List (List Coord)}
    (hr : ring ≠ []) (hh : ∀ r ∈ holes, r ≠ []) (hs : g.shape = .polygon ring (holes.map .polygon)) :
    ∃ g', interfaceTrip true cartesian key proj4 g = .ok g' ∧ g'.shape = g.shape := by
  obtain ⟨v, vs, rfl, hc⟩ := closed_ok hr
  refine ⟨_, by simp only [interfaceTrip, geoInterface, geomdict, hs, hc, subRings_polygons _ hh, fromShape]; rfl, ?_⟩
  rw [hs]
  simp only [Shape.polygon.injEq]
  refine ⟨ringString_closed v vs, ?_⟩
  rw [List.map_map]
  apply List.map_congr_left
  intro r hr'
  obtain ⟨w, ws, rfl, -⟩ := closed_ok (hh r hr')
  simp only [Function.comp, Sub.polygon.injEq]
  exact ringString_closed w ws

/-- C105 for points, lines, polygons and multipoints: the properties come back, together with the projection. -/
theorem C105_properties_partial {drop : Bool} {cartesian : C} {key : F} {proj4 : C → Val A} {g g' : Geom F A C}
    (hs : (∀ vs, g.shape ≠ .multiline vs) ∧ ∀ vs, g.shape ≠ .multipolygon vs) (h : interfaceTrip drop cartesian key proj4 g = .ok g') :
    g'.props.lookup key = some (proj4 g.crs) ∧ ∀ k, k ≠ key → g'.props.lookup k = g.props.lookup k := by
  have key' : g'.props = dictUpdate g.props [(key, proj4 g.crs)] := by
    unfold interfaceTrip geoInterface at h
    cases hg : geomdict g.shape with
    | error e => rw [hg] at h; exact absurd h (by simp)
    | ok gj =>
      rw [hg] at h
      have e : ∀ gj : GJ, fromShape drop cartesian gj (dictUpdate g.props [(key, proj4 g.crs)]) = .ok g' →
          g'.props = dictUpdate g.props [(key, proj4 g.crs)] := by
        intro gj hf
        cases gj with
        | point v =>
          simp only [fromShape] at hf
          by_cases hl : v.length = 2 ∨ v.length = 3
          · rw [if_pos hl] at hf; rw [← Except.ok.inj hf]
          · rw [if_neg hl] at hf; exact absurd hf (by simp)
        | polygon rs =>
          cases rs with
          | nil => exact absurd hf (by simp [fromShape])
          | cons r rs => simp only [fromShape] at hf; rw [← Except.ok.inj hf]
        | _ => simp only [fromShape] at hf; rw [← Except.ok.inj hf]
      cases hgs : g.shape with
      | multiline vs => exact absurd hgs (hs.1 vs)
      | multipolygon vs => exact absurd hgs (hs.2 vs)
      | _ => simp only [hgs] at h; exact e gj h
  have hn : Keys [(key, proj4 g.crs)] := by simp [Keys]
  rw [key']
  constructor
  · rw [lookup_dictUpdate _ _ hn, updatedValue]
    simp [List.lookup_cons]
  · intro k hk
    rw [lookup_dictUpdate _ _ hn, updatedValue]
    have : (k == key) = false := beq_eq_false_iff_ne.2 hk
    simp [List.lookup_cons, this]

/-- What comes back is Cartesian whatever the system of the geometry, and has no data fields. -/
theorem C105_violated_crs_and_data {drop : Bool} {cartesian : C} {key : F} {proj4 : C → Val A} {g g' : Geom F A C}
    (h : interfaceTrip drop cartesian key proj4 g = .ok g') : g'.crs = cartesian ∧ g'.data.fields = [] := by
  unfold interfaceTrip at h
  cases hg : geoInterface key proj4 g with
  | error e => rw [hg] at h; exact absurd h (by simp)
  | ok q =>
    obtain ⟨gj, p⟩ := q
    rw [hg] at h
    simp only at h
    cases gj with
    | point v =>
      simp only [fromShape] at h
      by_cases hl : v.length = 2 ∨ v.length = 3
      · rw [if_pos hl] at h; rw [← Except.ok.inj h]; exact ⟨rfl, rfl⟩
      · rw [if_neg hl] at h; exact absurd h (by simp)
    | polygon rs =>
      cases rs with
      | nil => exact absurd h (by simp [fromShape])
      | cons r rs => simp only [fromShape] at h; rw [← Except.ok.inj h]; exact ⟨rfl, rfl⟩
    | _ => simp only [fromShape] at h; rw [← Except.ok.inj h]; exact ⟨rfl, rfl⟩

/-- Multilines and multipolygons lose all their properties. -/
theorem C105_violated_properties {drop : Bool} {cartesian : C} {key : F} {proj4 : C → Val A} {g g' : Geom F A C}
    (hs : (∃ vs, g.shape = .multiline vs) ∨ ∃ vs, g.shape = .multipolygon vs) (h : interfaceTrip drop cartesian key proj4 g = .ok g') :
    g'.props = [(key, proj4 g.crs)] := by
  rcases hs with ⟨vs, hv⟩ | ⟨vs, hv⟩
  · simp only [interfaceTrip, geoInterface, geomdict, hv] at h
    cases hn : nested vs with
    | error e => rw [hn] at h; exact absurd h (by simp)
    | ok vs' =>
      rw [hn] at h
      simp only [fromShape, Except.ok.injEq] at h
      rw [← h]
  · simp only [interfaceTrip, geoInterface, geomdict, hv] at h
    cases hc : closedPolys vs with
    | error e => rw [hc] at h; exact absurd h (by simp)
    | ok vs' =>
      rw [hc] at h
      simp only at h
      cases hn : nested vs' with
      | error e => rw [hn] at h; exact absurd h (by simp)
      | ok vs'' =>
        rw [hn] at h
        simp only [fromShape, Except.ok.injEq] at h
        rw [← h]

/-- Every ring of a multipolygon comes back with its first vertex repeated at the end. -/
theorem C105_violated_multipolygon (drop : Bool) (cartesian : C) (key : F) (proj4 : C → Val A) (g : Geom F A C) {vs : List (List (List Coord))}
    (hp : [] ∉ vs) (hne : ∀ p ∈ vs, ∀ r ∈ p, r ≠ []) (hs : g.shape = .multipolygon vs) :
    ∃ g', interfaceTrip drop cartesian key proj4 g = .ok g' ∧ g'.shape = .multipolygon (vs.map fun p => p.map fun r => r ++ r.head?.toList) := by
  refine ⟨_, by simp only [interfaceTrip, geoInterface, geomdict, hs, closedPolys_ok vs hne, nested_ok (not_nil_mem_map _ hp), fromShape]; rfl, rfl⟩

/-- A multiline one of whose parts has no vertices cannot be handed to other programs, nor written as GeoJSON in any system. -/
theorem C105_violated_empty_part (drop : Bool) (cartesian : C) (key : F) (proj4 : C → Val A) (g : Geom F A C) {vs : List (List Coord)}
    (hs : g.shape = .multiline vs) (h : [] ∈ vs) : interfaceTrip drop cartesian key proj4 g = .error .indexError := by
  simp only [interfaceTrip, geoInterface, geomdict, hs, nested_empty h]

theorem C106_violated_empty_part (wgs84 : C) (crs84 u : U) (move : Coord → Coord) (wind : List Coord → List Coord) (drop : Bool) (g : Geom F A C)
    (force : Bool) (ord : List F) (crs : C) {vs : List (List Coord)} (hs : g.shape = .multiline vs) (h : [] ∈ vs) :
    geojsonTrip wgs84 crs84 move wind drop g (some u) force ord crs = .error .indexError := by
  have hm : [] ∈ vs.map fun l => l.map move := List.mem_map.2 ⟨[], h, rfl⟩
  unfold geojsonTrip asGeojson
  by_cases hf : (force && decide (g.crs ≠ wgs84)) = true
  · simp only [hf, if_true, asNamedTuple, hs, moved, toGJ, nested_empty hm, Option.isNone_some, Bool.and_false, Bool.false_eq_true, if_false]
  · simp only [hf, if_false, asNamedTuple, hs, toGJ, nested_empty h, Option.isNone_some, Bool.and_false, Bool.false_eq_true]

/-! ### Examples -/

/-- A pair of points in WGS84 with a field and two properties. -/
def exMulti : Geom String Int Nat :=
  ⟨.multipoint [[1, 2], [3, 4]], [("name", .text 7 [some 1, some 2, some 3]), ("year", .scalar (some 2000))], ⟨["t"], [[some 5], [none]]⟩, 0⟩

/-- A square with a hole. -/
def exHoled : Geom String Int Nat :=
  ⟨.polygon [[0, 0], [4, 0], [4, 4], [0, 4]] [.polygon [[1, 1], [2, 1], [2, 2]]], [("a", .scalar (some 1))], ⟨[], []⟩, 0⟩

/-- A multipolygon of one triangle. -/
def exMultipoly : Geom String Int Nat := ⟨.multipolygon [[[[0, 0], [4, 0], [4, 4]]]], [("a", .scalar (some 1))], ⟨["t"], [[some 5]]⟩, 0⟩

theorem exMulti_wf : exMulti.data.WF := ⟨by decide, by decide⟩

theorem exOrder (f : String) : IsOrder [f] [f] := ⟨by simp, by simp⟩

example := C106_points_and_lines_partial (A := Int) (wgs84 := 0) (g := ⟨.point [1, 2], [("a", .scalar (some 1))], ⟨[], []⟩, 0⟩) (urn := none) (force := true)
  "crs84" id id true [] 7 (Or.inl ⟨rfl, rfl⟩) (Or.inl ⟨[1, 2], rfl, Or.inl rfl⟩)

example := C106_polygons_partial (A := Int) (wgs84 := 0) (g := ⟨.polygon [[0, 0], [1, 0], [1, 1]] [], [("a", .scalar (some 1))], ⟨[], []⟩, 0⟩) (urn := none)
  (force := true) "crs84" id (wind := List.reverse) (fun _ => Or.inr rfl) [] 7 (Or.inl ⟨rfl, rfl⟩) (ring := [[0, 0], [1, 0], [1, 1]]) (by simp) rfl

example := C106_violated_holes (wgs84 := 0) (g := exHoled) (urn := none) (force := true) "crs84" id id true [] 7 (Or.inl ⟨rfl, rfl⟩)
  (ring := [[0, 0], [4, 0], [4, 4], [0, 4]]) (by simp) (holes := [[[1, 1], [2, 1], [2, 2]]]) (by simp) rfl

example := C106_violated_converted_holes (wgs84 := 3) "crs84" id id true exHoled none [] 7 (ring := [[0, 0], [4, 0], [4, 4], [0, 4]]) (by simp) _ rfl (by decide)

example := C106_multiparts_partial (wgs84 := 0) (g := exMulti) (urn := none) (force := true) "crs84" id id true (ord := ["t"]) 7 (Or.inl ⟨rfl, rfl⟩)
  (Or.inl ⟨_, rfl⟩) (by unfold Keys; decide) exMulti_wf rfl (exOrder "t") (by
    intro kv hkv hk
    simp only [exMulti, List.mem_cons, List.not_mem_nil, or_false] at hkv
    rcases hkv with rfl | rfl <;> simp [Val.len?, exMulti, Shape.parts])

example : ∃ g', geojsonTrip 0 "crs84" id id true exMultipoly none true ["t"] 7 = .ok g' := ⟨_, rfl⟩

example : ∃ g', geojsonTrip 0 "crs84" id id true (⟨.multipoint [[1, 2], [3, 4]], [("ab", .list [some 1, some 2])], ⟨["t"], [[some 5], [none]]⟩, 0⟩ : Geom String Int Nat)
    none true ["t"] 7 = .ok g' := ⟨_, rfl⟩

example : ∃ f g', asGeojson 0 "crs84" id exMulti none true ["t"] = .ok (f, g') := ⟨_, _, rfl⟩

example : ∃ f g', asGeojson 0 "crs84" id exHoled none true [] = .ok (f, g') := ⟨_, _, rfl⟩

example : interfaceTrip true 9 "_karta_proj4" (fun _ => .scalar (some 1)) (⟨.multiline [[[0, 0], [1, 1]], []], [], ⟨[], []⟩, 0⟩ : Geom String Int Nat) =
    .error .indexError :=
  C105_violated_empty_part _ _ _ _ _ (vs := [[[0, 0], [1, 1]], []]) rfl (by simp)

example := C105_polygons_partial 9 "_karta_proj4" (fun _ => .scalar (some 1)) exHoled (ring := [[0, 0], [4, 0], [4, 4], [0, 4]])
  (holes := [[[1, 1], [2, 1], [2, 2]]]) (by simp) (by simp) rfl

example : ∃ g', interfaceTrip true 9 "_karta_proj4" (fun _ => .scalar (some 1)) exHoled = .ok g' := ⟨_, rfl⟩

example : ∃ g', interfaceTrip true 9 "_karta_proj4" (fun _ => .scalar (some 1)) exMultipoly = .ok g' := ⟨_, rfl⟩

end Karta.Exch
