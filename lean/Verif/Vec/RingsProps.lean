import Verif.Vec.Rings

/-!
# C159: a polygon is closed however it was obtained

Specification: a polygon has a side from its last vertex to its first, like between all others.  It can say of each point whether it is
contained: inside its ring and in none of its sub-polygons (`Poly.contains`, characterised by C98 and others), and crossings with the
closing side are found like those with other sides.
-/

namespace Karta.Rings
open Karta Karta.Vec

/-! ### Specification -/

mutual
/-- The region a polygon object stands for. -/
def PolyObj.plain : PolyObj → Poly
  | .mk cs subs => .mk cs.pts (plains subs)
/-- The regions of sub-polygons. -/
def plains : List PolyObj → List Poly
  | [] => []
  | p :: ps => p.plain :: plains ps
end

/-- Polygons made from coordinates or points, with sub-polygons made in this way: also hulls, transformed polygons and those read from
files, which hand lists or arrays of coordinates to the constructor (geometry.py 537-539, 613; read.py 37-39, 91-93). -/
inductive Made : PolyObj → Prop
  | coords (ps : List Pt) (subs : List PolyObj) : (∀ s ∈ subs, Made s) → Made (polygonOf (.coords ps) subs)
  | points (ps : List Pt) (subs : List PolyObj) : (∀ s ∈ subs, Made s) → Made (polygonOf (.points ps) subs)

/-- The flag is set, also in all sub-polygons. -/
inductive Closed : PolyObj → Prop
  | mk (cs : CS) (subs : List PolyObj) : cs.ring = true → (∀ s ∈ subs, Closed s) → Closed (.mk cs subs)

/-- `s` is the side from the last vertex to the first. -/
def ClosingSide (ps : List Pt) (s : Seg) : Prop := ps.getLast? = some s.a ∧ ps.head? = some s.b

/-! ### Lemmas -/

theorem made_closed {p : PolyObj} (h : Made p) : Closed p := by
  induction h with
  | coords ps subs _ ih => exact .mk _ _ rfl ih
  | points ps subs _ ih => exact .mk _ _ rfl ih

mutual
theorem contains_closed (pt : Pt) : (p : PolyObj) → Closed p → p.contains pt = .ok (p.plain.contains pt)
  | .mk cs subs, h => by
    cases h with
    | mk _ _ hr hs =>
      rw [PolyObj.contains, if_neg (by simp [hr]), PolyObj.plain, Poly.contains]
      by_cases hc : ringContains pt cs.pts = true
      · rw [if_pos hc, any_closed pt subs hs]
        simp [hc]
      · rw [if_neg hc]
        simp [hc]
theorem any_closed (pt : Pt) : (ps : List PolyObj) → (∀ s ∈ ps, Closed s) → anyContains pt ps = .ok (Poly.anyContains pt (plains ps))
  | [], _ => by rw [anyContains, plains, Poly.anyContains]
  | p :: ps, h => by
    rw [anyContains, contains_closed pt p (h p (by simp)), plains, Poly.anyContains]
    dsimp only
    cases hb : p.plain.contains pt with
    | true => simp
    | false => simp [any_closed pt ps (fun s hs => h s (by simp [hs]))]
end

theorem contains_open (pt : Pt) (cs : CS) (subs : List PolyObj) (h : cs.ring = false) :
    PolyObj.contains pt (.mk cs subs) = .error .typeError := by
  rw [PolyObj.contains, if_pos h]

/-- Strings in a collection are open. -/
def OpenStrings (m : List (List RingObj)) : Prop := ∀ p ∈ m, ∃ c rs, p = .string c :: rs ∧ c.ring = false

theorem ofPolygons_open (ps : List PolyObj) : OpenStrings (ofPolygons ps) := by
  intro p hp
  obtain ⟨q, _, rfl⟩ := List.mem_map.mp hp
  exact ⟨_, _, rfl, rfl⟩

theorem ofArrays_open {ps : List (List (List Pt))} (h : ∀ p ∈ ps, p ≠ []) : OpenStrings (ofArrays ps) := by
  intro p hp
  obtain ⟨q, hq, rfl⟩ := List.mem_map.mp hp
  cases q with
  | nil => exact absurd rfl (h _ hq)
  | cons r rs => exact ⟨_, _, rfl, rfl⟩

theorem item_open {m : List (List RingObj)} (h : OpenStrings m) {i : Int} {p : PolyObj} (hi : item m i = .ok p) : p.cs.ring = false := by
  unfold item at hi
  cases hx : Py.index? m i with
  | none => rw [hx] at hi; cases hi
  | some rs =>
    rw [hx] at hi
    have hm : rs ∈ m := by
      unfold Py.index? at hx
      split at hx
      · exact List.mem_of_getElem? hx
      · split at hx
        · exact List.mem_of_getElem? hx
        · cases hx
    obtain ⟨c, qs, rfl, hc⟩ := h rs hm
    simp only [partPolygon, Except.ok.injEq] at hi
    rw [← hi]
    exact hc

/-! ### C159 -/

/-- Polygons made from coordinates or points answer for every point, and answer as the region they stand for. -/
theorem C159_made_partial (p : PolyObj) (h : Made p) (pt : Pt) : p.contains pt = .ok (p.plain.contains pt) :=
  contains_closed pt p (made_closed h)

/-- All crossings of the closing side of a polygon made from coordinates are found. -/
theorem C159_crossings_partial (p : PolyObj) (h : Made p) (c : CS) (s : Seg) (hs : ClosingSide p.cs.pts s) (r : Seg)
    (hr : r ∈ segsOf c.ring c.pts) (x : Pt) (hx : intersection s r = some x) : x ∈ crossings p.cs c := by
  have hring : p.cs.ring = true := by cases made_closed h with | mk _ _ hr _ => exact hr
  unfold crossings allIntersections
  rw [List.mem_flatMap]
  refine ⟨s, ?_, List.mem_filterMap.mpr ⟨r, hr, hx⟩⟩
  rw [hring]
  simp only [segsOf, if_true]
  obtain ⟨h1, h2⟩ := hs
  rw [List.mem_iff_getElem?]
  cases hp : p.cs.pts with
  | nil => rw [hp] at h1; simp at h1
  | cons a as =>
    rw [hp] at h1 h2
    refine ⟨as.length, ?_⟩
    rw [List.getElem?_zipWith]
    have e1 : (a :: as)[as.length]? = some s.a := by
      rw [List.getLast?_eq_getElem?] at h1
      simpa using h1
    have e2 : ((a :: as).rotate 1)[as.length]? = some s.b := by
      rw [List.rotate_cons_succ, List.rotate_zero]
      simp only [List.head?_cons, Option.some.injEq] at h2
      rw [List.getElem?_append_right (le_refl _)]
      simp [h2]
    rw [e1, e2]

theorem getAt_map {A B : Type _} (f : A → B) (l : List A) (i : Int) : Py.index? (l.map f) i = (Py.index? l i).map f := by
  unfold Py.index?
  rw [List.length_map, List.getElem?_map, List.getElem?_map]
  split
  · rfl
  · split <;> rfl

/-- The parts of a collection have the rings they were given, the inner ones in order, as sub-polygons that are closed again. -/
theorem C159_part_rings (ps : List PolyObj) (i : Int) (q p : PolyObj) (hq : Py.index? ps i = some q) (hp : item (ofPolygons ps) i = .ok p) :
    p.cs.pts = q.cs.pts ∧ p.subs.map PolyObj.cs = q.subs.map fun s => ⟨true, s.cs.pts⟩ := by
  unfold item ofPolygons at hp
  rw [getAt_map, hq] at hp
  simp only [Option.map_some, partPolygon, Except.ok.injEq] at hp
  subst hp
  refine ⟨rfl, ?_⟩
  simp [polygonOf, PolyObj.subs, PolyObj.cs, RingObj.input, baseInit, Function.comp_def]

/-- The same for collections made of lists of rings. -/
theorem C159_part_arrays (ps : List (List (List Pt))) (i : Int) (r : List Pt) (rs : List (List Pt)) (p : PolyObj) (hq : Py.index? ps i = some (r :: rs))
    (hp : item (ofArrays ps) i = .ok p) : p.cs.pts = r ∧ p.subs.map (fun s => s.cs.pts) = rs := by
  unfold item ofArrays at hp
  rw [getAt_map, hq] at hp
  simp only [Option.map_some, List.map_cons, partPolygon, Except.ok.injEq] at hp
  subst hp
  refine ⟨rfl, ?_⟩
  simp [polygonOf, PolyObj.subs, PolyObj.cs, RingObj.input, baseInit, Function.comp_def]

/-- The hypotheses are met: the last of two polygons, with a hole. -/
example : ∃ p, item (ofPolygons [.mk ⟨true, []⟩ [], .mk ⟨true, [⟨0, 0⟩, ⟨9, 0⟩, ⟨0, 9⟩]⟩ [.mk ⟨true, [⟨1, 1⟩, ⟨2, 1⟩, ⟨1, 2⟩]⟩ []]]) (-1) = .ok p ∧
    p.subs.map PolyObj.cs = [⟨true, [⟨1, 1⟩, ⟨2, 1⟩, ⟨1, 2⟩]⟩] := ⟨_, rfl, rfl⟩

/-- A polygon made of a line has no sense of inside: `contains` raises for every line and every point. -/
theorem C159_violated_to_polygon (i : Input) (hi : ∀ c, i = .string c → c.ring = false) (pt : Pt) :
    (toPolygon (lineOf i)).contains pt = .error .typeError := by
  have : (lineOf i).ring = false := by
    cases i with
    | string c => exact hi c rfl
    | coords ps => rfl
    | points ps => rfl
  exact contains_open pt _ _ this

/-- No part of any collection of polygons can say whether it contains a point. -/
theorem C159_violated_parts (m : List (List RingObj)) (hm : (∃ ps, m = ofPolygons ps) ∨ ∃ ps, m = ofArrays ps ∧ ∀ p ∈ ps, p ≠ [])
    (i : Int) (p : PolyObj) (hp : item m i = .ok p) (pt : Pt) : p.contains pt = .error .typeError := by
  have ho : OpenStrings m := by
    rcases hm with ⟨ps, rfl⟩ | ⟨ps, rfl, h⟩
    · exact ofPolygons_open ps
    · exact ofArrays_open h
  have := item_open ho hp
  cases p with
  | mk cs subs => exact contains_open pt cs subs this

/-- The parts of a collection lack a side: a string that crosses only the closing side of the polygon put in has no crossings with the part
taken out. -/
theorem C159_violated_crossings (q : PolyObj) (p : PolyObj) (hp : item (ofPolygons [q]) 0 = .ok p) (c : CS)
    (hno : ∀ s ∈ segsOf false q.cs.pts, ∀ r ∈ segsOf c.ring c.pts, intersection s r = none) : crossings p.cs c = [] := by
  have hr := item_open (ofPolygons_open [q]) hp
  have hpts : p.cs.pts = q.cs.pts := by
    simp only [item, ofPolygons, List.map_cons, List.map_nil, Py.index?] at hp
    simp only [partPolygon] at hp
    cases hp
    rfl
  unfold crossings allIntersections
  rw [hr, hpts, List.flatMap_eq_nil_iff]
  intro s hs
  rw [List.filterMap_eq_nil_iff]
  intro r hr'
  exact hno s hs r hr'

/-! ### Concrete cases -/

/-- A square whose closing side is on the left. -/
def square : PolyObj := polygonOf (.coords [⟨0, 0⟩, ⟨10, 0⟩, ⟨10, 10⟩, ⟨0, 10⟩]) []

/-- A line from the left into the square. -/
def probe : CS := lineOf (.coords [⟨-5, 4⟩, ⟨5, 5⟩])

theorem square_made : Made square := .coords _ _ (fun _ h => by cases h)

example : square.contains ⟨5, 5⟩ = .ok true ∧ square.contains ⟨15, 5⟩ = .ok false := by
  rw [C159_made_partial _ square_made, C159_made_partial _ square_made]
  exact ⟨by decide +kernel, by decide +kernel⟩

example : ClosingSide square.cs.pts ⟨⟨0, 10⟩, ⟨0, 0⟩⟩ ∧ crossings square.cs probe = [⟨0, 9/2⟩] := ⟨⟨rfl, rfl⟩, by decide +kernel⟩

/-- The square crosses the line; taken from a collection it does not. -/
theorem C159_violated_touching : ∃ p, item (ofPolygons [square]) 0 = .ok p ∧ meets square.cs probe = .ok true ∧
    meets p.cs probe = .ok false ∧
    (∃ part, asPart p = some part ∧ Multi.touchingLine 20 [part] probe.pts = .ok (some [])) ∧
    ∃ part, asPart square = some part ∧ Multi.touchingLine 20 [part] probe.pts = .ok (some [0]) := by
  refine ⟨_, rfl, by decide +kernel, by decide +kernel, ⟨_, rfl, by decide +kernel⟩, ⟨_, rfl, by decide +kernel⟩⟩

/-- A polygon with a notch on the right, and a part whose closing side passes through the notch. -/
def notched : List Pt := [⟨0, 0⟩, ⟨10, 0⟩, ⟨10, 4⟩, ⟨3, 5⟩, ⟨10, 6⟩, ⟨10, 10⟩, ⟨0, 10⟩]

/-- `within` returns a polygon that is not inside: its closing side crosses the boundary of the argument. -/
theorem C159_violated_within : ∃ p, item (ofArrays [[[⟨8, 9⟩, ⟨1, 9⟩, ⟨1, 1⟩, ⟨8, 1⟩]]]) 0 = .ok p ∧
    meets ⟨true, notched⟩ ⟨true, p.cs.pts⟩ = .ok true ∧
    ∃ part, asPart p = some part ∧ Multi.within 20 [part] notched [] = .ok (some [0]) := by
  refine ⟨_, rfl, by decide +kernel, ⟨_, rfl, by decide +kernel⟩⟩

end Karta.Rings
