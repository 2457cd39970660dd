import Verif.Grid.CopySystem

/-!
# C166: a copy of a grid can be used like the grid
-/

namespace Karta.CopySys
open Karta Karta.Obj Karta.Verts

/-! ### Specification -/

/-- Two objects describe the same system. -/
def Same (a b : Crs) : Prop := a.kind = b.kind ∧ a.srs = b.srs ∧ a.init = b.init

/-- Conversions depend on the definitions of the systems only, and between systems with the same definition nothing changes. -/
structure Faithful (move : Crs → Crs → XY → XY) : Prop where
  definition : ∀ a a' b b', Same a a' → Same b b' → move a b = move a' b'
  identity : ∀ a b, Same a b → ∀ p, move a b p = p

/-! ### Helpers -/

theorem same_copied (n : Nat) (c : Crs) : Same (copied n c) c := ⟨rfl, rfl, rfl⟩

theorem same_refl (c : Crs) : Same c c := ⟨rfl, rfl, rfl⟩

theorem eq_comm' (a b : Crs) : a.eq b = b.eq a := by
  unfold Crs.eq
  by_cases h : a.kind = .projected ∨ b.kind = .projected
  · rw [if_pos h, if_pos h.symm, decide_eq_decide]
    constructor <;> rintro ⟨x, y, z, w⟩ <;> exact ⟨y, x, z.symm, w.symm⟩
  · rw [if_neg h, if_neg (fun k => h k.symm), decide_eq_decide]
    exact eq_comm

/-- Whether the copy equals another system: as the original for projected systems, never otherwise. -/
theorem copied_eq (n : Nat) (c p : Crs) (hn : n ≠ p.obj) :
    (copied n c).eq p = if c.kind = .projected ∨ p.kind = .projected then c.eq p else false := by
  unfold Crs.eq copied
  by_cases h : c.kind = .projected ∨ p.kind = .projected
  · simp only [if_pos h]
  · simp only [if_neg h]
    simp [hn]

/-- Equal systems without a projection are the same object. -/
theorem eq_obj {c p : Crs} (h : ¬ (c.kind = .projected ∨ p.kind = .projected)) (he : c.eq p = true) : c.obj = p.obj := by
  unfold Crs.eq at he
  rw [if_neg h] at he
  simpa using he

theorem pointIn_if (move : Crs → Crs → XY → XY) (g own : Crs) (v : Vertex) :
    pointIn move g own v = if g.eq own then .ok v.1 else transform move own g v.1 := by
  unfold pointIn pointVertex
  by_cases h : g.eq own = true
  · simp [h]
  · simp only [h, Bool.false_eq_true, if_false]
    cases transform move own g v.1 <;> rfl

/-! ### Theorems -/

/-- C166 for `sample(point)`: in projected and geographical systems, a point in any system is found at the same position of the copy as
of the original. -/
theorem C166_point_partial (move : Crs → Crs → XY → XY) (hm : Faithful move) (n : Nat) (grid own : Crs) (v : Vertex)
    (hk : grid.kind ≠ .cartesian) (hn : n ≠ own.obj) (hobj : grid.obj = own.obj → grid = own) :
    pointIn move (copied n grid) own v = pointIn move grid own v := by
  rw [pointIn_if, pointIn_if, copied_eq n grid own hn]
  have ht : transform move own (copied n grid) v.1 = transform move own grid v.1 := by
    unfold transform
    rw [hm.definition own own (copied n grid) grid (same_refl _) (same_copied ..)]
    rfl
  by_cases h : grid.kind = .projected ∨ own.kind = .projected
  · rw [if_pos h, ht]
  · rw [if_neg h, ht]
    by_cases he : grid.eq own = true
    · have := hobj (eq_obj h he)
      subst this
      simp only [Bool.false_eq_true, if_false, he, if_true]
      rw [transform, if_neg hk, if_neg hk, hm.identity _ _ (same_refl _)]
    · simp only [he]

/-- C166 for `sample(multipoint)` and `mask_by_poly`. -/
theorem C166_coords_partial (move : Crs → Crs → XY → XY) (hm : Faithful move) (n : Nat) (grid own : Crs) (v : Coords)
    (hk : grid.kind ≠ .cartesian) (hn : n ≠ own.obj) (hobj : grid.obj = own.obj → grid = own) :
    coordsIn move (copied n grid) own v = coordsIn move grid own v := by
  unfold coordsIn coords
  dsimp only
  rw [copied_eq n grid own hn]
  have ht : transformAll move own (copied n grid) v.ground = transformAll move own grid v.ground := by
    unfold transformAll
    rw [hm.definition own own (copied n grid) grid (same_refl _) (same_copied ..)]
    rfl
  by_cases h : grid.kind = .projected ∨ own.kind = .projected
  · rw [if_pos h, ht]
  · rw [if_neg h, ht]
    by_cases he : grid.eq own = true
    · have := hobj (eq_obj h he)
      subst this
      simp only [Bool.false_eq_true, if_false, he, if_true]
      rw [transformAll, if_neg hk, if_neg hk]
      have hid : move grid grid = id := funext fun p => hm.identity _ _ (same_refl _) p
      rw [hid, List.map_id]
    · simp only [he]

/-- C166 for `extent(crs)` and `coordinates(crs)`: the copy gives the same positions as the original. -/
theorem C166_positions_partial (move : Crs → Crs → XY → XY) (hm : Faithful move) (n : Nat) (grid : Crs) (ps : List XY) (crs : Option Crs)
    (hk : grid.kind ≠ .cartesian) (hn : ∀ c, crs = some c → n ≠ c.obj) (hobj : ∀ c, crs = some c → grid.obj = c.obj → grid = c) :
    positionsIn move (copied n grid) ps crs = positionsIn move grid ps crs ∧
    cornersIn move (copied n grid) ps crs = cornersIn move grid ps crs := by
  have hp : positionsIn move (copied n grid) ps crs = positionsIn move grid ps crs := by
    cases crs with
    | none => rfl
    | some c =>
      unfold positionsIn
      dsimp only
      rw [copied_eq n grid c (hn c rfl)]
      have ht : transformAll move (copied n grid) c ps = transformAll move grid c ps := by
        unfold transformAll
        rw [hm.definition (copied n grid) grid c c (same_copied ..) (same_refl _)]
        rfl
      by_cases h : grid.kind = .projected ∨ c.kind = .projected
      · rw [if_pos h, ht]
      · rw [if_neg h, ht]
        by_cases he : grid.eq c = true
        · have := hobj c rfl (eq_obj h he)
          subst this
          simp only [Bool.false_eq_true, if_false, he, if_true]
          rw [transformAll, if_neg hk, if_neg hk]
          have hid : move grid grid = id := funext fun p => hm.identity _ _ (same_refl _) p
          rw [hid, List.map_id]
        · simp only [he]
  have hc : ∀ g, cornersIn move g ps crs = positionsIn move g ps crs := by
    intro g
    cases crs with
    | none => rfl
    | some c => unfold cornersIn positionsIn; dsimp only; rw [eq_comm']
  exact ⟨hp, by rw [hc, hc, hp]⟩

/-- C166 is violated in Cartesian systems, the default: points, multipoints and polygons in the system of the grid are found by the original,
and raise `NotImplementedError` with every copy. -/
theorem C166_violated_cartesian (move : Crs → Crs → XY → XY) (n : Nat) (c : Crs) (hk : c.kind = .cartesian) (hn : n ≠ c.obj) (v : Vertex)
    (vs : Coords) (ps : List XY) :
    pointIn move c c v = .ok v.1 ∧ pointIn move (copied n c) c v = .error .notImplemented ∧
    coordsIn move c c vs = .ok vs.ground ∧ coordsIn move (copied n c) c vs = .error .notImplemented ∧
    cornersIn move c ps (some c) = .ok ps ∧ cornersIn move (copied n c) ps (some c) = .error .notImplemented ∧
    positionsIn move c ps (some c) = .ok ps ∧ positionsIn move (copied n c) ps (some c) = .error .notImplemented := by
  have h1 : c.eq c = true := by unfold Crs.eq; rw [hk]; simp
  have h2 : (copied n c).eq c = false := by rw [copied_eq n c c hn, hk]; simp
  have h3 : c.eq (copied n c) = false := by rw [eq_comm']; exact h2
  have hk' : (copied n c).kind = .cartesian := hk
  refine ⟨?_, ?_, ?_, ?_, ?_, ?_, ?_, ?_⟩
  · rw [pointIn_if, h1]; rfl
  · rw [pointIn_if, h2, transform, hk]; rfl
  · simp [coordsIn, coords, h1]
  · simp [coordsIn, coords, h2, transformAll, hk]
  · simp [cornersIn, h1]
  · simp [cornersIn, h3, transformAll, hk']
  · simp [positionsIn, h1]
  · simp [positionsIn, h2, transformAll, hk']

/-- C166 for `clip` without a system of its own: nothing depends on the system.  With the grid's own Cartesian system by name it raises for
the original as for the copy. -/
theorem C166_clip (move : Crs → Crs → XY → XY) (hm : Faithful move) (n : Nat) (grid : Crs) (ps : List XY) (crs : Option Crs) :
    clipIn move (copied n grid) ps crs = clipIn move grid ps crs := by
  cases crs with
  | none => rfl
  | some c =>
    unfold clipIn transformAll
    dsimp only
    rw [hm.definition c c (copied n grid) grid (same_refl _) (same_copied ..)]
    rfl

/-! ### Examples -/

/-- Conversion of systems whose definitions differ by a shift. -/
def shiftMove (a b : Crs) (p : XY) : XY := if a.kind = b.kind ∧ a.srs = b.srs ∧ a.init = b.init then p else (p.1 + 100, p.2)

theorem shiftMove_faithful : Faithful shiftMove := by
  constructor
  · intro a a' b b' h h'
    funext p
    unfold shiftMove
    rw [h.1, h.2.1, h.2.2, h'.1, h'.2.1, h'.2.2]
  · intro a b h p
    unfold shiftMove
    rw [if_pos ⟨h.1, h.2.1, h.2.2⟩]

def utm : Crs := ⟨1, .projected, "+proj=utm", "+a=1", "utm"⟩
def wgs : Crs := ⟨2, .geographical, "+proj=lonlat", "+a=1", "wgs"⟩
def cart : Crs := ⟨3, .cartesian, "", "", "Cartesian"⟩

example : pointIn shiftMove (copied 9 wgs) wgs ((1, 2), none) = .ok (1, 2) ∧
    pointIn shiftMove (copied 9 wgs) utm ((1, 2), none) = .ok (101, 2) ∧ pointIn shiftMove (copied 9 utm) utm ((1, 2), none) = .ok (1, 2) ∧
    wgs.kind ≠ .cartesian ∧ (9 : Nat) ≠ wgs.obj := by
  decide +kernel

example : cart.kind = .cartesian ∧ (9 : Nat) ≠ cart.obj := by decide

end Karta.CopySys
