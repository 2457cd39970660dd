import Verif.Vec.Vertices
import Mathlib.Data.List.Forall2

/-!
# C157, C158: vertices in another coordinate system, and sums of geometries

Specification: a geometry shown in another system has the same parts and vertices in the same order; the position of each is converted from
the system of the geometry to the one asked for, and its height is kept.  Asked for no system, or for one that compares equal, positions
are as they are.
-/

namespace Karta.Verts
open Karta Karta.Obj

/-! ### Specification -/

/-- The vertices one by one, with heights where there are any. -/
def Coords.list : Coords → List Vertex
  | .flat ps => ps.map fun p => (p, none)
  | .tall ps => ps.map fun p => (p.1, some p.2)

/-- The position asked for. -/
def asked (move : Crs → Crs → XY → XY) (own : Crs) (crs : Option Crs) (p : XY) : XY :=
  match crs with
  | none => p
  | some c => if c.eq own then p else move own c p

/-- `w` shows the vertices `v` as asked. -/
def Shows (move : Crs → Crs → XY → XY) (own : Crs) (crs : Option Crs) (v w : Coords) : Prop :=
  w.list = v.list.map fun u => (asked move own crs u.1, u.2)

/-- Positions can be converted: both systems have a projection. -/
def Convertible (own : Crs) (crs : Option Crs) : Prop := ∀ c, crs = some c → own.kind ≠ .cartesian ∧ c.kind ≠ .cartesian

/-- Conversion does nothing between systems that compare equal. -/
def Fixes (move : Crs → Crs → XY → XY) : Prop := ∀ a b p, a.eq b = true → move b a p = p

/-- Objects have an identity: the same object is the same system. -/
def Same (own : Crs) (crs : Option Crs) : Prop := ∀ c, crs = some c → c.obj = own.obj → c = own

/-- No heights. -/
def Coords.Flat : Coords → Prop
  | .flat _ => True
  | .tall _ => False

/-! ### Lemmas -/

theorem eq_refl' (a : Crs) : a.eq a = true := by
  unfold Crs.eq
  by_cases h : a.kind = .projected ∨ a.kind = .projected
  · rw [if_pos h]
    have : a.kind = .projected := by tauto
    simp [this]
  · rw [if_neg h]; simp

theorem list_ground (v : Coords) : v.list.map Prod.fst = v.ground := by
  cases v with
  | flat ps => simp [Coords.list, Coords.ground, Function.comp_def]
  | tall ps => simp [Coords.list, Coords.ground]

theorem shows_flat {move : Crs → Crs → XY → XY} {own : Crs} {crs : Option Crs} {v : Coords} (h : v.Flat) :
    Shows move own crs v (.flat (v.ground.map (asked move own crs))) := by
  cases v with
  | flat ps => simp [Shows, Coords.list, Coords.ground]
  | tall ps => exact absurd h (by simp [Coords.Flat])

theorem shows_own {move : Crs → Crs → XY → XY} {own : Crs} {crs : Option Crs} (v : Coords)
    (h : ∀ c, crs = some c → c.eq own = true) : Shows move own crs v v := by
  have ha : ∀ p, asked move own crs p = p := by
    intro p
    cases crs with
    | none => rfl
    | some c => simp [asked, h c rfl]
  unfold Shows
  simp [ha]

theorem asked_own {move : Crs → Crs → XY → XY} {own : Crs} {crs : Option Crs} (h : ∀ c, crs = some c → c.eq own = true) :
    asked move own crs = id := by
  funext p
  cases crs with
  | none => rfl
  | some c => simp [asked, h c rfl]

theorem transformAll_ok {move : Crs → Crs → XY → XY} {own c : Crs} (h1 : own.kind ≠ .cartesian) (h2 : c.kind ≠ .cartesian) (ps : List XY) :
    transformAll move own c ps = .ok (ps.map (move own c)) := by
  unfold transformAll; rw [if_neg h1, if_neg h2]

theorem transform_ok {move : Crs → Crs → XY → XY} {own c : Crs} (h1 : own.kind ≠ .cartesian) (h2 : c.kind ≠ .cartesian) (p : XY) :
    transform move own c p = .ok (move own c p) := by
  unfold transform; rw [if_neg h1, if_neg h2]

theorem reprojectEach_ok {move : Crs → Crs → XY → XY} {own c : Crs} (h1 : own.kind ≠ .cartesian) (h2 : c.kind ≠ .cartesian)
    (ps : List XY) : reprojectEach move own c ps = .ok (ps.map (move own c)) := by
  induction ps with
  | nil => rfl
  | cons p ps ih => rw [reprojectEach, transform_ok h1 h2]; dsimp only; rw [ih]; rfl

theorem reprojectParts_ok {move : Crs → Crs → XY → XY} {own c : Crs} (h1 : own.kind ≠ .cartesian) (h2 : c.kind ≠ .cartesian)
    (vs : List Coords) : reprojectParts move own c vs = .ok (vs.map fun v => .flat (v.ground.map (move own c))) := by
  induction vs with
  | nil => rfl
  | cons p ps ih => rw [reprojectParts, reprojectEach_ok h1 h2]; dsimp only; rw [ih]; rfl

theorem reprojectRings_ok {move : Crs → Crs → XY → XY} {own c : Crs} (h1 : own.kind ≠ .cartesian) (h2 : c.kind ≠ .cartesian)
    (vs : List RingObj) : reprojectRings move own c vs = .ok (vs.map fun v => .flat (v.ground.map (move own c))) := by
  induction vs with
  | nil => rfl
  | cons p ps ih => rw [reprojectRings, reprojectEach_ok h1 h2]; dsimp only; rw [ih]; rfl

theorem reprojectPolygons_ok {move : Crs → Crs → XY → XY} {own c : Crs} (h1 : own.kind ≠ .cartesian) (h2 : c.kind ≠ .cartesian)
    (vs : List (List RingObj)) :
    reprojectPolygons move own c vs = .ok (vs.map fun p => p.map fun v => .flat (v.ground.map (move own c))) := by
  induction vs with
  | nil => rfl
  | cons p ps ih => rw [reprojectPolygons, reprojectRings_ok h1 h2]; dsimp only; rw [ih]; rfl

theorem ringArrays_strings (vs : List Coords) : ringArrays (vs.map .string) = .ok vs := by
  induction vs with
  | nil => rfl
  | cons v vs ih => rw [List.map_cons, ringArrays, ih]

theorem polygonArrays_strings (ps : List (List Coords)) : polygonArrays (ringsOfArrays ps) = .ok ps := by
  induction ps with
  | nil => rfl
  | cons p ps ih =>
    have : ringsOfArrays (p :: ps) = p.map .string :: ringsOfArrays ps := rfl
    rw [this, polygonArrays, ringArrays_strings]; dsimp only; rw [ih]

theorem asked_some {move : Crs → Crs → XY → XY} {own c : Crs} (h : c.eq own = false) : asked move own (some c) = move own c := by
  funext p; simp [asked, h]

theorem asked_fixes {move : Crs → Crs → XY → XY} (hm : Fixes move) (own c : Crs) : asked move own (some c) = move own c := by
  funext p
  cases h : c.eq own with
  | false => simp [asked, h]
  | true => simp [asked, h, hm c own p h]

/-! ### C157 -/

/-- Asked for no system or for their own, all geometries give their vertices and heights as they are. -/
theorem C157_own (move : Crs → Crs → XY → XY) (own : Crs) (crs : Option Crs) (h : crs = none ∨ crs = some own) :
    (∀ v, pointVertex move own v crs = .ok v) ∧ (∀ v, vertices move own v crs false = .ok v) ∧
    (∀ v, coords move own v crs = .ok (v.list.map Prod.fst)) ∧ (∀ vs, multilineVertices move own vs crs = .ok vs) ∧
    (∀ ps, multipolygonVertices move own (ringsOfArrays ps) crs = .ok ps) := by
  have hr := eq_refl' own
  rcases h with rfl | rfl
  · refine ⟨fun _ => rfl, fun v => by simp [vertices], fun v => by rw [list_ground]; rfl, fun _ => rfl, fun ps => ?_⟩
    simp [multipolygonVertices, polygonArrays_strings]
  · refine ⟨fun v => by simp [pointVertex, hr], fun v => by simp [vertices], fun v => by rw [list_ground]; simp [coords, hr],
      fun vs => by simp [multilineVertices, hr], fun ps => ?_⟩
    simp [multipolygonVertices, hr, polygonArrays_strings]

/-- The columns that `coords` of collections gives are the first coordinates, the second ones and the heights, if there are any. -/
theorem C157_columns (v : Coords) : (columns v)[0]? = some (v.list.map fun u => u.1.1) ∧ (columns v)[1]? = some (v.list.map fun u => u.1.2) ∧
    (∀ ps, v = .flat ps → (columns v).length = 2) ∧
    ∀ ps, v = .tall ps → (columns v).length = 3 ∧ ∃ zs, (columns v)[2]? = some zs ∧ v.list.map Prod.snd = zs.map some := by
  cases v with
  | flat ps => simp [columns, Coords.list]
  | tall ps => simp [columns, Coords.list]

/-- `coords` gives all positions in the system asked for. -/
theorem C157_coords (move : Crs → Crs → XY → XY) (own : Crs) (v : Coords) (crs : Option Crs) (hc : Convertible own crs) :
    coords move own v crs = .ok (v.list.map fun u => asked move own crs u.1) := by
  have hg : v.list.map (fun u => asked move own crs u.1) = v.ground.map (asked move own crs) := by
    rw [← list_ground]; simp
  rw [hg]
  cases crs with
  | none => simp [coords, asked_own (move := move) (own := own) (crs := none) (fun c h => by cases h)]
  | some c =>
    obtain ⟨h1, h2⟩ := hc c rfl
    cases he : c.eq own with
    | true => simp [coords, he, asked_own (move := move) (crs := some c) (fun d h => by cases h; exact he)]
    | false => simp [coords, he, asked_some he, transformAll_ok h1 h2]

/-- `vertices` of lines, polygons and multipoints without heights, or without asking for them, shows all vertices in the system asked for. -/
theorem C157_vertices_partial (move : Crs → Crs → XY → XY) (hm : Fixes move) (own : Crs) (v : Coords) (crs : Option Crs) (dropZ : Bool)
    (hc : Convertible own crs) (hs : Same own crs) (hv : v.Flat ∨ dropZ = true) :
    ∃ w, vertices move own v crs dropZ = .ok w ∧ Shows move own crs (.flat v.ground) w := by
  have hflat : Shows move own crs (.flat v.ground) (.flat (v.ground.map (asked move own crs))) := shows_flat trivial
  have hif : (if dropZ = true then Coords.flat v.ground else v) = .flat v.ground := by
    rcases hv with h | h
    · cases v with
      | flat ps => simp [Coords.ground]
      | tall ps => exact absurd h (by simp [Coords.Flat])
    · simp [h]
  cases crs with
  | none =>
    refine ⟨.flat v.ground, ?_, shows_own _ (fun c h => by cases h)⟩
    simp only [vertices]; rw [hif]
  | some c =>
    obtain ⟨h1, h2⟩ := hc c rfl
    by_cases ho : c.obj = own.obj
    · have hown := hs c rfl ho
      subst hown
      refine ⟨.flat v.ground, ?_, shows_own _ (fun d h => by cases h; exact eq_refl' _)⟩
      simp only [vertices]; rw [if_pos trivial, hif]
    · refine ⟨.flat (v.ground.map (asked move own (some c))), ?_, hflat⟩
      simp only [vertices]; rw [if_neg ho, transformAll_ok h1 h2, asked_fixes hm]
      dsimp only
      cases v with
      | flat ps => rfl
      | tall ps =>
        rcases hv with h | h
        · exact absurd h (by simp [Coords.Flat])
        · subst h; rfl

/-- `coords` and `vertices` agree, whatever is asked for and whatever the geometry. -/
theorem C157_agree (move : Crs → Crs → XY → XY) (hm : Fixes move) (own : Crs) (v : Coords) (crs : Option Crs) (dropZ : Bool)
    (hs : Same own crs) {w : Coords} {ps : List XY} (hv : vertices move own v crs dropZ = .ok w) (hp : coords move own v crs = .ok ps) :
    w.list.map Prod.fst = ps := by
  rw [list_ground]
  have hgr : (if dropZ = true then Coords.flat v.ground else v).ground = v.ground := by cases dropZ <;> simp [Coords.ground]
  cases crs with
  | none =>
    simp only [vertices, coords, Except.ok.injEq] at hv hp
    rw [← hv, ← hp, hgr]
  | some c =>
    simp only [vertices, coords] at hv hp
    by_cases ho : c.obj = own.obj
    · have hown := hs c rfl ho
      subst hown
      rw [if_pos rfl] at hv
      rw [if_pos (eq_refl' _)] at hp
      simp only [Except.ok.injEq] at hv hp
      rw [← hv, ← hp, hgr]
    · rw [if_neg ho] at hv
      unfold transformAll at hv hp
      by_cases h1 : own.kind = .cartesian
      · rw [if_pos h1] at hv; simp at hv
      by_cases h2 : c.kind = .cartesian
      · rw [if_neg h1, if_pos h2] at hv; simp at hv
      rw [if_neg h1, if_neg h2] at hv hp
      have hw : w.ground = v.ground.map (move own c) := by
        dsimp only at hv
        cases v with
        | flat qs => simp only [Except.ok.injEq] at hv; rw [← hv]; rfl
        | tall qs =>
          cases dropZ with
          | false => simp at hv
          | true => simp only [Except.ok.injEq] at hv; rw [← hv]; rfl
      rw [hw]
      by_cases he : c.eq own = true
      · rw [if_pos he] at hp
        simp only [Except.ok.injEq] at hp
        rw [← hp]
        have : (fun p => move own c p) = id := by funext p; exact hm c own p he
        rw [show move own c = id from this]; simp
      · rw [if_neg he] at hp
        simp only [Except.ok.injEq] at hp
        exact hp

/-- A point without height is shown in the system asked for. -/
theorem C157_point_partial (move : Crs → Crs → XY → XY) (own : Crs) (p : XY) (crs : Option Crs) (hc : Convertible own crs) :
    pointVertex move own (p, none) crs = .ok (asked move own crs p, none) := by
  cases crs with
  | none => rfl
  | some c =>
    obtain ⟨h1, h2⟩ := hc c rfl
    cases he : c.eq own with
    | true => simp [pointVertex, he, asked]
    | false => simp [pointVertex, he, asked, transform_ok h1 h2]

/-- The parts of a multiline without heights are shown one by one, and its columns are those of the vertices. -/
theorem C157_multiline_partial (move : Crs → Crs → XY → XY) (own : Crs) (vs : List Coords) (crs : Option Crs) (hc : Convertible own crs)
    (hf : ∀ v ∈ vs, v.Flat) :
    ∃ ws, multilineVertices move own vs crs = .ok ws ∧ List.Forall₂ (Shows move own crs) vs ws ∧
      multilineCoords move own vs crs = .ok (ws.map columns) := by
  have key : ∃ ws, multilineVertices move own vs crs = .ok ws ∧ List.Forall₂ (Shows move own crs) vs ws := by
    have same : (∀ c, crs = some c → c.eq own = true) → List.Forall₂ (Shows move own crs) vs vs := by
      intro h
      exact List.forall₂_same.mpr fun v _ => shows_own v h
    cases crs with
    | none => exact ⟨vs, rfl, same (fun c h => by cases h)⟩
    | some c =>
      obtain ⟨h1, h2⟩ := hc c rfl
      cases he : c.eq own with
      | true => exact ⟨vs, by simp [multilineVertices, he], same (fun d h => by cases h; exact he)⟩
      | false =>
        refine ⟨vs.map fun v => .flat (v.ground.map (move own c)), by simp [multilineVertices, he, reprojectParts_ok h1 h2], ?_⟩
        rw [List.forall₂_map_right_iff, List.forall₂_same]
        intro v hv
        rw [← asked_some (move := move) he]
        exact shows_flat (hf v hv)
  obtain ⟨ws, h1, h2⟩ := key
  exact ⟨ws, h1, h2, by simp [multilineCoords, h1]⟩

/-- The rings of a multipolygon built from rings without heights are shown one by one. -/
theorem C157_multipolygon_partial (move : Crs → Crs → XY → XY) (own : Crs) (ps : List (List Coords)) (crs : Option Crs)
    (hc : Convertible own crs) (hf : ∀ p ∈ ps, ∀ v ∈ p, v.Flat) :
    ∃ ws, multipolygonVertices move own (ringsOfArrays ps) crs = .ok ws ∧ List.Forall₂ (List.Forall₂ (Shows move own crs)) ps ws ∧
      multipolygonCoords move own (ringsOfArrays ps) crs = .ok (ws.map fun p => p.map columns) := by
  have key : ∃ ws, multipolygonVertices move own (ringsOfArrays ps) crs = .ok ws ∧
      List.Forall₂ (List.Forall₂ (Shows move own crs)) ps ws := by
    have same : (∀ c, crs = some c → c.eq own = true) → List.Forall₂ (List.Forall₂ (Shows move own crs)) ps ps := by
      intro h
      exact List.forall₂_same.mpr fun p _ => List.forall₂_same.mpr fun v _ => shows_own v h
    cases crs with
    | none => exact ⟨ps, by simp [multipolygonVertices, polygonArrays_strings], same (fun c h => by cases h)⟩
    | some c =>
      obtain ⟨h1, h2⟩ := hc c rfl
      cases he : c.eq own with
      | true =>
        exact ⟨ps, by simp [multipolygonVertices, he, polygonArrays_strings], same (fun d h => by cases h; exact he)⟩
      | false =>
        refine ⟨ps.map fun p => p.map fun v => .flat (v.ground.map (move own c)), ?_, ?_⟩
        · simp [multipolygonVertices, he, reprojectPolygons_ok h1 h2, ringsOfArrays, Function.comp_def, RingObj.ground]
        · rw [List.forall₂_map_right_iff, List.forall₂_same]
          intro p hp
          rw [List.forall₂_map_right_iff, List.forall₂_same]
          intro v hv
          rw [← asked_some (move := move) he]
          exact shows_flat (hf p hp v hv)
  obtain ⟨ws, h1, h2⟩ := key
  exact ⟨ws, h1, h2, by simp [multipolygonCoords, h1]⟩

/-- Nothing is converted to or from a Cartesian system by mistake: `vertex`, `vertices` and `coords` raise. -/
theorem C157_refused (move : Crs → Crs → XY → XY) (own c : Crs) (hne : c.obj ≠ own.obj)
    (hk : own.kind = .cartesian ∨ c.kind = .cartesian) (w : Vertex) (v : Coords) (dropZ : Bool) :
    (∃ e, pointVertex move own w (some c) = .error e) ∧ (∃ e, vertices move own v (some c) dropZ = .error e) ∧
    (∃ e, coords move own v (some c) = .error e) := by
  have he : c.eq own = false := by
    unfold Crs.eq
    by_cases h : c.kind = .projected ∨ own.kind = .projected
    · rw [if_pos h]
      rcases hk with hk | hk <;> simp [hk]
    · rw [if_neg h]; simpa using hne
  have ht : ∀ p, ∃ e, transform move own c p = .error e := by
    intro p; unfold transform
    by_cases h1 : own.kind = .cartesian
    · exact ⟨_, by rw [if_pos h1]⟩
    · exact ⟨_, by rw [if_neg h1, if_pos (hk.resolve_left h1)]⟩
  have hta : ∀ ps, ∃ e, transformAll move own c ps = .error e := by
    intro p; unfold transformAll
    by_cases h1 : own.kind = .cartesian
    · exact ⟨_, by rw [if_pos h1]⟩
    · exact ⟨_, by rw [if_neg h1, if_pos (hk.resolve_left h1)]⟩
  obtain ⟨e1, h1⟩ := ht w.1
  obtain ⟨e2, h2⟩ := hta v.ground
  refine ⟨⟨e1, by simp [pointVertex, he, h1]⟩, ⟨e2, ?_⟩, ⟨e2, by simp [coords, he, h2]⟩⟩
  simp only [vertices]; rw [if_neg hne, h2]

/-- Lines, polygons and multipoints with heights cannot be shown in any other system, not even in an equal one. -/
theorem C157_violated_line (move : Crs → Crs → XY → XY) (own c : Crs) (hc : Convertible own (some c)) (hne : c.obj ≠ own.obj)
    (ps : List (XY × ℚ)) : vertices move own (.tall ps) (some c) false = .error .attributeError := by
  obtain ⟨h1, h2⟩ := hc c rfl
  simp only [vertices]; rw [if_neg hne, transformAll_ok h1 h2]

/-- Points and the parts of multilines and multipolygons lose their heights when they are shown in another system. -/
theorem C157_violated_heights (move : Crs → Crs → XY → XY) (own c : Crs) (hc : Convertible own (some c)) (hne : c.eq own = false)
    (z : ℚ) (p : XY) (vs : List Coords) (rs : List (List Coords)) :
    pointVertex move own (p, some z) (some c) = .ok (move own c p, none) ∧
    (∃ ws, multilineVertices move own vs (some c) = .ok ws ∧ ∀ w ∈ ws, ∀ u ∈ w.list, u.2 = none) ∧
    (∃ ws, multipolygonVertices move own (ringsOfArrays rs) (some c) = .ok ws ∧ ∀ q ∈ ws, ∀ w ∈ q, ∀ u ∈ w.list, u.2 = none) := by
  obtain ⟨h1, h2⟩ := hc c rfl
  have hflat : ∀ ps : List XY, ∀ u ∈ (Coords.flat ps).list, u.2 = none := by
    intro ps u hu
    simp only [Coords.list, List.mem_map] at hu
    obtain ⟨a, _, rfl⟩ := hu
    rfl
  refine ⟨by simp [pointVertex, hne, transform_ok h1 h2],
    ⟨_, by simp only [multilineVertices, hne]; exact reprojectParts_ok h1 h2 vs, ?_⟩,
    ⟨_, by simp only [multipolygonVertices, hne]; exact reprojectPolygons_ok h1 h2 _, ?_⟩⟩
  · intro w hw
    obtain ⟨v, _, rfl⟩ := List.mem_map.mp hw
    exact hflat _
  · intro q hq w hw
    obtain ⟨r, _, rfl⟩ := List.mem_map.mp hq
    obtain ⟨v, _, rfl⟩ := List.mem_map.mp hw
    exact hflat _

/-- A multipolygon built from polygons, one of which has a hole, has no vertices to show in its own system. -/
theorem C157_violated_holes (move : Crs → Crs → XY → XY) (c : Crs) (ps : List Polygon) (rs : List (List RingObj))
    (hb : ringsOfPolygons move c ps = .ok rs) (hh : ∃ p ∈ ps, p.subs ≠ []) :
    multipolygonVertices move c rs none = .error .attributeError := by
  show polygonArrays rs = _
  induction ps generalizing rs with
  | nil => obtain ⟨p, hp, _⟩ := hh; cases hp
  | cons p ps ih =>
    rw [ringsOfPolygons] at hb
    cases hv : vertices move p.crs p.ring (some c) false with
    | error e => rw [hv] at hb; cases hb
    | ok v =>
      rw [hv] at hb; dsimp only at hb
      cases hr : ringsOfPolygons move c ps with
      | error e => rw [hr] at hb; cases hb
      | ok r =>
        rw [hr] at hb
        simp only [Except.ok.injEq] at hb
        subst hb
        rw [polygonArrays]
        cases hsub : p.subs with
        | cons s ss =>
          have : ringArrays (.string v :: (s :: ss).map fun s => .polygon s p.crs) = .error .attributeError := rfl
          rw [this]
        | nil =>
          have : ringArrays (.string v :: ([] : List Coords).map fun s => .polygon s p.crs) = .ok [v] := rfl
          rw [this]; dsimp only
          rw [ih r hr]
          obtain ⟨q, hq, hne⟩ := hh
          rcases List.mem_cons.mp hq with rfl | hq
          · exact absurd hsub hne
          · exact ⟨q, hq, hne⟩

/-- In another system `d` the holes of a polygon in system `p.crs` are converted as if they had been in the system `c` of the collection:
the hole is shown in the wrong place whenever the two conversions differ. -/
theorem C157_violated_hole_place (move : Crs → Crs → XY → XY) (c d : Crs) (p : Polygon) (s : List XY) (rs : List (List RingObj))
    (hb : ringsOfPolygons move c [p] = .ok rs) (hs : p.subs = [.flat s]) (hc : Convertible c (some d)) (hne : d.eq c = false)
    (hdiff : ∃ x ∈ s, move c d x ≠ asked move p.crs (some d) x) :
    ∃ ring hole, multipolygonVertices move c rs (some d) = .ok [[ring, hole]] ∧ ¬ Shows move p.crs (some d) (.flat s) hole := by
  obtain ⟨h1, h2⟩ := hc d rfl
  rw [ringsOfPolygons] at hb
  cases hv : vertices move p.crs p.ring (some c) false with
  | error e => rw [hv] at hb; cases hb
  | ok v =>
    rw [hv] at hb
    simp only [ringsOfPolygons, Except.ok.injEq] at hb
    subst hb
    refine ⟨.flat (v.ground.map (move c d)), .flat (s.map (move c d)), ?_, ?_⟩
    · simp [multipolygonVertices, hne, reprojectPolygons_ok h1 h2, hs, RingObj.ground, Coords.ground]
    · intro hsh
      simp only [Shows, Coords.list, List.map_map, List.map_inj_left, Function.comp_def] at hsh
      obtain ⟨x, hx, hd⟩ := hdiff
      have := hsh x hx
      simp only [Prod.mk.injEq, and_true] at this
      exact hd this

/-! ### C158 -/

/-- The sum of two points without heights is the two of them in the system of the first. -/
theorem C158_points_partial (move : Crs → Crs → XY → XY) (a b : XY) (ca cb : Crs) (hc : Convertible cb (some ca)) :
    addPoints move (a, none) ca (b, none) cb = .ok ([(a, none), (asked move cb (some ca) b, none)], ca) := by
  simp [addPoints, C157_point_partial move cb b (some ca) hc]

/-- The sum of two lines without heights is the two of them, in order, in the system of the first. -/
theorem C158_lines_partial (move : Crs → Crs → XY → XY) (hm : Fixes move) (a b : Coords) (ca cb : Crs) (hc : Convertible cb (some ca))
    (hs : Same cb (some ca)) (hb : b.Flat) :
    ∃ w, addLines move a ca b cb = .ok ([a, w], ca) ∧ Shows move cb (some ca) b w := by
  obtain ⟨w, h1, h2⟩ := C157_vertices_partial move hm cb b (some ca) false hc hs (.inl hb)
  refine ⟨w, by simp [addLines, h1], ?_⟩
  cases b with
  | flat ps => exact h2
  | tall ps => exact absurd hb (by simp [Coords.Flat])

/-- The sum of two lines in one system is the two of them, with heights if there are any. -/
theorem C158_lines_same (move : Crs → Crs → XY → XY) (a b : Coords) (c : Crs) : addLines move a c b c = .ok ([a, b], c) := by
  simp [addLines, (C157_own move c (some c) (.inr rfl)).2.1 b]

/-- The sum of two polygons without holes and heights is the two rings, in order, in the system of the first. -/
theorem C158_polygons_partial (move : Crs → Crs → XY → XY) (hm : Fixes move) (a b : Polygon) (hc : Convertible b.crs (some a.crs))
    (hs : Same b.crs (some a.crs)) (hb : b.ring.Flat) (_ha : a.subs = []) (_hb : b.subs = []) :
    ∃ w, addPolygons move a b = .ok ([a.ring :: a.subs, w :: b.subs], a.crs) ∧ Shows move b.crs (some a.crs) b.ring w := by
  obtain ⟨w, h1, h2⟩ := C157_vertices_partial move hm b.crs b.ring (some a.crs) false hc hs (.inl hb)
  refine ⟨w, by simp [addPolygons, h1, _ha, _hb], ?_⟩
  cases hr : b.ring with
  | flat ps => rw [hr] at h2; exact h2
  | tall ps => rw [hr] at hb; exact absurd hb (by simp [Coords.Flat])

/-- Holes are lost: both parts of a sum of polygons have one ring, whatever holes the operands have. -/
theorem C158_violated_holes (move : Crs → Crs → XY → XY) (a b : Polygon) {ps : List (List Coords)} {c : Crs}
    (h : addPolygons move a b = .ok (ps, c)) : ∀ p ∈ ps, p.length = 1 := by
  unfold addPolygons at h
  cases hv : vertices move b.crs b.ring (some a.crs) false with
  | error e => rw [hv] at h; cases h
  | ok w =>
    rw [hv] at h
    simp only [Except.ok.injEq, Prod.mk.injEq] at h
    rw [← h.1]
    simp

/-- Lines and polygons with heights cannot be added to ones in other systems. -/
theorem C158_violated_heights (move : Crs → Crs → XY → XY) (a : Coords) (ca cb : Crs) (ps : List (XY × ℚ))
    (hc : Convertible cb (some ca)) (hne : ca.obj ≠ cb.obj) : addLines move a ca (.tall ps) cb = .error .attributeError := by
  simp [addLines, C157_violated_line move cb ca hc hne ps]

/-- Adding points with heights in different systems hands vertices of different lengths to the multipoint. -/
theorem C158_violated_points (move : Crs → Crs → XY → XY) (a b : XY) (y z : ℚ) (ca cb : Crs) (hc : Convertible cb (some ca))
    (hne : ca.eq cb = false) :
    addPoints move (a, some y) ca (b, some z) cb = .ok ([(a, some y), (move cb ca b, none)], ca) := by
  simp [addPoints, (C157_violated_heights move cb ca hc hne z b [] []).1]

/-! ### Concrete cases -/

/-- The first of three systems: two projected ones, 100 apart, and a geographical one. -/
def sysA : Crs := ⟨1, .projected, "a", "g", "A"⟩
def sysB : Crs := ⟨2, .projected, "b", "g", "B"⟩
def sysC : Crs := ⟨3, .geographical, "c", "g", "C"⟩

/-- Where the origin of a system is. -/
def offset (c : Crs) : ℚ := if c.srs = "a" then 0 else if c.srs = "b" then 100 else 7

/-- A conversion that shifts positions. -/
def shiftMove (a b : Crs) (p : XY) : XY := (p.1 + offset a - offset b, p.2)

theorem shiftMove_fixes : Fixes fun a b p => if b.eq a then p else shiftMove a b p := by
  intro a b p h; simp [h]

example : Convertible sysA (some sysB) ∧ Same sysA (some sysB) := by
  constructor
  · intro c h; cases h; exact ⟨by decide, by decide⟩
  · intro c h; cases h; intro h; exact absurd h (by decide)

example : vertices shiftMove sysA (.flat [(1, 2), (3, 4)]) (some sysB) false = .ok (.flat [(-99, 2), (-97, 4)]) := by decide +kernel
example : coords shiftMove sysA (.tall [((1, 2), 5), ((3, 4), 6)]) (some sysB) = .ok [(-99, 2), (-97, 4)] := by decide +kernel
example : vertices shiftMove sysA (.tall [((1, 2), 5), ((3, 4), 6)]) (some sysB) false = .error .attributeError := by decide +kernel
example : multilineVertices shiftMove sysA [.tall [((1, 2), 5)], .flat [(3, 4)]] (some sysB) = .ok [.flat [(-99, 2)], .flat [(-97, 4)]] := by
  decide +kernel

/-- A square with a hole, in system A, in a collection in system B. -/
def holed : Polygon := ⟨.flat [(0, 0), (10, 0), (10, 10), (0, 10)], [.flat [(4, 4), (6, 4), (6, 6)]], sysA⟩

example : ∃ rs, ringsOfPolygons shiftMove sysB [holed] = .ok rs ∧ holed.subs ≠ [] ∧
    (∃ x ∈ [((4 : ℚ), (4 : ℚ)), (6, 4), (6, 6)], shiftMove sysB sysC x ≠ asked shiftMove holed.crs (some sysC) x) ∧
    multipolygonVertices shiftMove sysB rs (some sysC) =
      .ok [[.flat [(-7, 0), (3, 0), (3, 10), (-7, 10)], .flat [(97, 4), (99, 4), (99, 6)]]] :=
  ⟨_, rfl, by decide, ⟨(4, 4), by decide, by decide +kernel⟩, by decide +kernel⟩

example : addPolygons shiftMove holed ⟨.flat [(200, 0), (210, 0), (210, 10)], [], sysB⟩ =
    .ok ([[.flat [(0, 0), (10, 0), (10, 10), (0, 10)]], [.flat [(300, 0), (310, 0), (310, 10)]]], sysA) := by decide +kernel

end Karta.Verts
