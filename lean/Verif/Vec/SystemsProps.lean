import Verif.Vec.Systems
import Verif.Vec.VerticesProps

/-!
# C160: holes count in any coordinate system

Specification: a point is in a polygon exactly when, converted to the system of the ring, it is inside the ring, and it is in none of the
sub-polygons, each asked in its own system.  A polygon read from a file has all its rings in the system of the file.
-/

namespace Karta.Systems
open Karta Karta.Obj Karta.Verts

/-! ### Specification -/

/-- The point at `pt` in system `pc` is in the region of a polygon. -/
inductive Inside (move : Crs → Crs → XY → XY) (inRing : Crs → List XY → XY → Bool) (pc : Crs) (pt : XY) : Bool → SPoly → Prop
  | outside (c ring subs) : inRing c ring (asked move pc (some c) pt) = false → Inside move inRing pc pt false (.mk c ring subs)
  | hole (c ring subs s) : inRing c ring (asked move pc (some c) pt) = true → s ∈ subs → Inside move inRing pc pt true s →
      Inside move inRing pc pt false (.mk c ring subs)
  | inside (c ring subs) : inRing c ring (asked move pc (some c) pt) = true → (∀ s ∈ subs, Inside move inRing pc pt false s) →
      Inside move inRing pc pt true (.mk c ring subs)

/-- All systems of a polygon satisfy `P`. -/
inductive Each (P : Crs → Prop) : SPoly → Prop
  | mk (c ring subs) : P c → (∀ s ∈ subs, Each P s) → Each P (.mk c ring subs)

/-! ### Lemmas -/

mutual
theorem contains_spec (move : Crs → Crs → XY → XY) (inRing : Crs → List XY → XY → Bool) (pc : Crs) (pt : XY) :
    (p : SPoly) → Each (fun c => c = pc ∨ Convertible pc (some c)) p →
      ∃ b, p.contains move inRing pc pt = .ok b ∧ Inside move inRing pc pt b p
  | .mk c ring subs, h => by
    cases h with
    | mk _ _ _ hc hs =>
      have hv : pointVertex move pc (pt, none) (some c) = .ok (asked move pc (some c) pt, none) := by
        rcases hc with rfl | hc
        · simp [pointVertex, asked, eq_refl' c]
        · exact C157_point_partial move pc pt (some c) hc
      rw [SPoly.contains, hv]
      dsimp only
      by_cases hr : inRing c ring (asked move pc (some c) pt) = true
      · rw [if_pos hr]
        obtain ⟨b, h1, h2, h3⟩ := any_spec move inRing pc pt subs hs
        rw [h1]
        cases b with
        | true =>
          obtain ⟨s, hs', hi⟩ := h2 rfl
          exact ⟨false, rfl, .hole c ring subs s hr hs' hi⟩
        | false => exact ⟨true, rfl, .inside c ring subs hr (h3 rfl)⟩
      · rw [if_neg hr]
        exact ⟨false, rfl, .outside c ring subs (by simpa using hr)⟩
theorem any_spec (move : Crs → Crs → XY → XY) (inRing : Crs → List XY → XY → Bool) (pc : Crs) (pt : XY) :
    (ps : List SPoly) → (∀ s ∈ ps, Each (fun c => c = pc ∨ Convertible pc (some c)) s) →
      ∃ b, anyContains move inRing pc pt ps = .ok b ∧ (b = true → ∃ s ∈ ps, Inside move inRing pc pt true s) ∧
        (b = false → ∀ s ∈ ps, Inside move inRing pc pt false s)
  | [], _ => ⟨false, by rw [anyContains], by simp, by simp⟩
  | p :: ps, h => by
    obtain ⟨b, h1, h2⟩ := contains_spec move inRing pc pt p (h p (by simp))
    rw [anyContains, h1]
    dsimp only
    cases b with
    | true => exact ⟨true, by simp, fun _ => ⟨p, by simp, h2⟩, by simp⟩
    | false =>
      obtain ⟨b', h3, h4, h5⟩ := any_spec move inRing pc pt ps (fun s hs => h s (by simp [hs]))
      refine ⟨b', by simpa using h3, ?_, ?_⟩
      · intro hb
        obtain ⟨s, hs, hi⟩ := h4 hb
        exact ⟨s, by simp [hs], hi⟩
      · intro hb s hs
        rcases List.mem_cons.mp hs with rfl | hs
        · exact h2
        · exact h5 hb s hs
end

/-- The answers exclude each other. -/
theorem inside_unique (move : Crs → Crs → XY → XY) (inRing : Crs → List XY → XY → Bool) (pc : Crs) (pt : XY) {b : Bool} {p : SPoly}
    (h : Inside move inRing pc pt b p) : ∀ {b'}, Inside move inRing pc pt b' p → b = b' := by
  induction h with
  | outside c ring subs hr =>
    intro b' h'
    cases h' with
    | outside => rfl
    | hole => rfl
    | inside _ _ _ hr' => rw [hr] at hr'; cases hr'
  | hole c ring subs s hr hs _ ih =>
    intro b' h'
    cases h' with
    | outside => rfl
    | hole => rfl
    | inside _ _ _ _ hall => exact absurd (ih (hall s hs)) (by simp)
  | inside c ring subs hr hs ih =>
    intro b' h'
    cases h' with
    | outside _ _ _ hr' => rw [hr] at hr'; cases hr'
    | hole _ _ _ s _ hs' hi => exact absurd (ih s hs' hi) (by simp)
    | inside => rfl

/-! ### C160 -/

/-- `contains` gives the right answer when all systems of the polygon are the one of the point or can be converted. -/
theorem C160_contains_partial (move : Crs → Crs → XY → XY) (inRing : Crs → List XY → XY → Bool) (pc : Crs) (pt : XY) (p : SPoly)
    (h : Each (fun c => c = pc ∨ Convertible pc (some c)) p) (b : Bool) :
    p.contains move inRing pc pt = .ok b ↔ Inside move inRing pc pt b p := by
  obtain ⟨b', h1, h2⟩ := contains_spec move inRing pc pt p h
  constructor
  · intro hb
    rw [h1] at hb
    cases hb
    exact h2
  · intro hb
    rw [h1, inside_unique move inRing pc pt h2 hb]

/-- A polygon without holes that was read from a file has the system of the file, and answers as it should. -/
theorem C160_read_partial (move : Crs → Crs → XY → XY) (inRing : Crs → List XY → XY → Bool) (dflt c pc : Crs) (ring : List XY) (pt : XY)
    (h : c = pc ∨ Convertible pc (some c)) :
    readPolygon dflt c [ring] = .ok (.mk c ring []) ∧
    (SPoly.mk c ring []).contains move inRing pc pt = .ok (inRing c ring (asked move pc (some c) pt)) := by
  refine ⟨rfl, ?_⟩
  rw [C160_contains_partial move inRing pc pt _ (.mk c ring [] h (fun _ h => by cases h))]
  cases hr : inRing c ring (asked move pc (some c) pt) with
  | true => exact .inside c ring [] hr (fun _ h => by cases h)
  | false => exact .outside c ring [] hr

/-- A polygon with holes that was read from a file cannot be asked about any point inside its ring: the holes are in the Cartesian system,
to which nothing can be converted. -/
theorem C160_violated_contains (move : Crs → Crs → XY → XY) (inRing : Crs → List XY → XY → Bool) (dflt c pc : Crs)
    (hd : dflt.kind = .cartesian) (hne : dflt.obj ≠ pc.obj) (hpc : pc.kind ≠ .cartesian) (hc : c.kind ≠ .cartesian)
    (ring hole : List XY) (holes : List (List XY)) (pt : XY) (hr : inRing c ring (asked move pc (some c) pt) = true) :
    ∃ p, readPolygon dflt c (ring :: hole :: holes) = .ok p ∧ p.contains move inRing pc pt = .error .attributeError := by
  refine ⟨_, rfl, ?_⟩
  have hv : pointVertex move pc (pt, none) (some c) = .ok (asked move pc (some c) pt, none) :=
    C157_point_partial move pc pt (some c) (fun d hd => by cases hd; exact ⟨hpc, hc⟩)
  have he : dflt.eq pc = false := by
    unfold Crs.eq
    by_cases h : dflt.kind = .projected ∨ pc.kind = .projected
    · rw [if_pos h]; simp [hd]
    · rw [if_neg h]; simpa using hne
  have hv' : pointVertex move pc (pt, none) (some dflt) = .error .attributeError := by
    simp [pointVertex, he, transform, hpc, hd]
  rw [SPoly.setCrs, SPoly.contains, hv]
  dsimp only
  rw [if_pos hr, List.map_cons, anyContains, SPoly.contains, hv']

/-- What the polygon read from a file should be. -/
def expected (c : Crs) (ring : List XY) (holes : List (List XY)) : SPoly := .mk c ring (holes.map fun s => .mk c s [])

theorem areas_holes (ringArea : Crs → List XY → ℚ) (c : Crs) (holes : List (List XY)) :
    areas ringArea (holes.map fun s => .mk c s []) = (holes.map fun s => |ringArea c s|).sum := by
  induction holes with
  | nil => rw [List.map_nil, areas]; rfl
  | cons h hs ih =>
    rw [List.map_cons, areas, ih, SPoly.area, areas]
    simp

/-- The areas of the holes of a polygon read from a file are those in the Cartesian system (square degrees for geographical files), and they
are subtracted from an area in the system of the file. -/
theorem C160_violated_area (ringArea : Crs → List XY → ℚ) (dflt c : Crs) (ring : List XY) (holes : List (List XY)) :
    ∃ p, readPolygon dflt c (ring :: holes) = .ok p ∧
      p.area ringArea - (expected c ring holes).area ringArea =
        (holes.map fun s => |ringArea c s|).sum - (holes.map fun s => |ringArea dflt s|).sum := by
  refine ⟨_, rfl, ?_⟩
  rw [SPoly.setCrs, expected, SPoly.area, SPoly.area, areas_holes, areas_holes]
  exact sub_sub_sub_cancel_left _ _ _

/-! ### Concrete cases -/

/-- The default system. -/
def cart : Crs := ⟨0, .cartesian, "", "", "Cartesian"⟩

/-- A test for boxes given by two corners. -/
def inBox (_ : Crs) (ring : List XY) (p : XY) : Bool :=
  match ring with
  | [a, b] => decide (a.1 ≤ p.1 ∧ p.1 ≤ b.1 ∧ a.2 ≤ p.2 ∧ p.2 ≤ b.2)
  | _ => false

/-- A box with a hole, in systems A and B. -/
def framed : SPoly := .mk sysA [(0, 0), (10, 10)] [.mk sysB [(-96, 4), (-94, 6)] []]

example : Each (fun c => c = sysA ∨ Convertible sysA (some c)) framed :=
  .mk _ _ _ (.inl rfl) (fun s hs => by
    obtain rfl := List.mem_singleton.mp hs
    exact .mk _ _ _ (.inr (fun d hd => by cases hd; exact ⟨by decide, by decide⟩)) (fun _ h => by cases h))

example : framed.contains shiftMove inBox sysA (5, 5) = .ok false ∧ framed.contains shiftMove inBox sysA (8, 5) = .ok true ∧
    framed.contains shiftMove inBox sysA (11, 5) = .ok false := by
  simp only [framed, SPoly.contains, anyContains]
  exact ⟨by decide +kernel, by decide +kernel, by decide +kernel⟩

example : ∃ p, readPolygon cart sysC [[(0, 0), (10, 10)], [(4, 4), (6, 6)]] = .ok p ∧
    p.contains shiftMove inBox sysC (8, 5) = .error .attributeError :=
  C160_violated_contains shiftMove inBox cart sysC sysC rfl (by decide) (by decide) (by decide) _ _ [] _ (by decide +kernel)

end Karta.Systems
