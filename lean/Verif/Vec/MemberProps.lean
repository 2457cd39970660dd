import Verif.Vec.Member
import Verif.Vec.ObjectsProps

/-!
# Property C153: membership in collections, lines and polygons
-/

namespace Karta.Obj
open Karta

variable {P D R : Type} [DecidableEq P] [DecidableEq D]

/-! ### Lemmas -/

theorem eq_ok {a : Geo P D} (h : a.kind ≠ .multipoint) (b : Geo P D) : ∃ t, a.eq b = .ok t := by
  unfold Geo.eq
  cases hk : a.kind with
  | multipoint => exact absurd hk h
  | point => exact ⟨_, rfl⟩
  | line => exact ⟨_, rfl⟩
  | polygon => exact ⟨_, rfl⟩

theorem scan_spec (part : Nat → Except Err (Geo P D)) (other : Geo P D) (n fuel i : Nat) (hf : n ≤ fuel + i)
    (hok : ∀ k, k < n → ∃ p, part k = .ok p ∧ p.kind ≠ .multipoint)
    (hend : n < fuel + i → part n = .error .indexError) (hi : i ≤ n) :
    ∃ t, scan part other fuel i = .ok t ∧
      (t = true ↔ ∃ k, i ≤ k ∧ k < n ∧ ∃ p, part k = .ok p ∧ p.eq other = .ok true) := by
  induction fuel generalizing i with
  | zero =>
    refine ⟨false, rfl, ⟨(fun h => by cases h), ?_⟩⟩
    rintro ⟨k, h1, h2, _⟩
    omega
  | succ fuel ih =>
    unfold scan
    by_cases hin : i < n
    · obtain ⟨p, hp, hk⟩ := hok i hin
      obtain ⟨t, ht⟩ := eq_ok hk other
      rw [hp]
      dsimp only
      rw [ht]
      cases t with
      | true => exact ⟨true, rfl, ⟨fun _ => ⟨i, le_refl _, hin, p, hp, ht⟩, fun _ => rfl⟩⟩
      | false =>
        dsimp only
        obtain ⟨t, h1, h2⟩ := ih (i + 1) (by omega) (fun h => hend (by omega)) hin
        refine ⟨t, h1, h2.trans ⟨?_, ?_⟩⟩
        · rintro ⟨k, a, b, c⟩
          exact ⟨k, by omega, b, c⟩
        · rintro ⟨k, a, b, q, hq, hq'⟩
          refine ⟨k, ?_, b, q, hq, hq'⟩
          rcases Nat.lt_or_ge i k with h | h
          · exact h
          · have : k = i := by omega
            subst this
            rw [hp] at hq
            cases hq
            rw [ht] at hq'
            cases hq'
    · have : i = n := by omega
      subst this
      rw [hend (by omega)]
      refine ⟨false, rfl, ⟨(fun h => by cases h), ?_⟩⟩
      rintro ⟨k, h1, h2, _⟩
      omega

/-- Parts with rows of their own: the collections that C57 is about. -/
def Coll.WF (c : Coll P R) : Prop := c.rows.length = c.parts.length ∧ c.kind ≠ .multipoint

/-- The part at position `i` that a user sees. -/
def Coll.geometry (merge : R → P → P) (none' : D) (c : Coll P R) (r : R) (v : List (List Fl) × List (List (List Fl))) : Geo P D :=
  ⟨c.kind, v.1, v.2, merge r c.props, none', c.crs⟩

theorem has_spec (merge : R → P → P) (none' : D) (c : Coll P R) (hc : c.WF) (other : Geo P D) :
    ∃ t, c.has merge none' other = .ok t ∧
      (t = true ↔ ∃ (i : Nat) (r : R) (v : List (List Fl) × List (List (List Fl))), c.rows[i]? = some r ∧ c.parts[i]? = some v ∧
        (c.geometry merge none' r v).eq other = .ok true) := by
  obtain ⟨t, h1, h2⟩ := scan_spec (c.part merge none') other c.rows.length (c.rows.length + 1) 0 (by omega)
    (fun k hk => by
      have hk' : k < c.parts.length := by rw [← hc.1]; exact hk
      exact ⟨c.geometry merge none' c.rows[k] c.parts[k], by
        simp only [Coll.part, List.getElem?_eq_getElem hk, List.getElem?_eq_getElem hk']; rfl, hc.2⟩)
    (fun _ => by simp [Coll.part]) (Nat.zero_le _)
  refine ⟨t, h1, h2.trans ⟨?_, ?_⟩⟩
  · rintro ⟨k, _, hk, p, hp, he⟩
    have hk' : k < c.parts.length := by rw [← hc.1]; exact hk
    refine ⟨k, _, _, List.getElem?_eq_getElem hk, List.getElem?_eq_getElem hk', ?_⟩
    simp only [Coll.part, List.getElem?_eq_getElem hk, List.getElem?_eq_getElem hk'] at hp
    rw [Coll.geometry, Except.ok.inj hp]
    exact he
  · rintro ⟨i, r, v, hr, hv, he⟩
    exact ⟨i, Nat.zero_le _, (List.getElem?_eq_some_iff.mp hr).1, c.geometry merge none' r v, by
      simp only [Coll.part, hr, hv]; rfl, he⟩

/-! ### C153 -/

/-- **C153 (partial).** Full statement: `g in collection` is true exactly when some part of the collection is the same as `g`: of the
same kind, with the same vertices, holes, attributes (its row together with those of the collection) and coordinate system; no
exception is raised.  Proved when neither side has holes; with holes, see `C153_violated_holes`. -/
theorem C153_collection_partial (merge : R → P → P) (none' : D) (c : Coll P R) (hc : c.WF) (other : Geo P D)
    (h1 : ∀ v ∈ c.parts, v.2 = []) (h2 : other.subs = []) :
    ∃ t, c.has merge none' other = .ok t ∧
      (t = true ↔ ∃ (i : Nat) (r : R) (v : List (List Fl) × List (List (List Fl))), c.rows[i]? = some r ∧ c.parts[i]? = some v ∧
        Same (⟨c.kind, v.1, v.2, merge r c.props, none', c.crs⟩ : Geo P D) other) := by
  obtain ⟨t, e, h⟩ := has_spec merge none' c hc other
  refine ⟨t, e, h.trans ⟨?_, ?_⟩⟩
  · rintro ⟨i, r, v, hr, hv, he⟩
    exact ⟨i, r, v, hr, hv, (C117_exact_partial _ _ (h1 v (List.mem_of_getElem? hv)) h2).mp he⟩
  · rintro ⟨i, r, v, hr, hv, he⟩
    exact ⟨i, r, v, hr, hv, (C117_exact_partial _ _ (h1 v (List.mem_of_getElem? hv)) h2).mpr he⟩

/-- **C153 (own parts).** Every part taken out of a collection is found in it, holes or not. -/
theorem C153_own_parts (merge : R → P → P) (none' : D) (c : Coll P R) (hc : c.WF) (i : Nat) (p : Geo P D)
    (hp : c.part merge none' i = .ok p) : c.has merge none' p = .ok true := by
  obtain ⟨t, e, h⟩ := has_spec merge none' c hc p
  unfold Coll.part at hp
  cases hr : c.rows[i]? with
  | none => rw [hr] at hp; cases hp
  | some r =>
    cases hv : c.parts[i]? with
    | none => rw [hr] at hp; dsimp only at hp; rw [hv] at hp; cases hp
    | some v =>
      rw [hr] at hp; dsimp only at hp; rw [hv] at hp
      rw [e, h.mpr ⟨i, r, v, hr, hv, ?_⟩]
      rw [← Except.ok.inj hp]
      exact C117_refl _

/-- **C153 (points of lines and polygons).** `point in line` is true exactly when the line has a vertex at the point and the attributes
and coordinate systems agree; likewise for polygons. -/
theorem C153_vertices (none' : D) (g other : Geo P D) :
    ∃ t, g.has none' other = .ok t ∧
      (t = true ↔ ∃ v ∈ g.verts, Same (⟨.point, [v], [], g.props, none', g.crs⟩ : Geo P D) other) := by
  have it : ∀ k, k < g.verts.length → ∃ v, g.verts[k]? = some v ∧
      g.item none' (k : Int) = .ok ⟨.point, [v], [], g.props, none', g.crs⟩ := by
    intro k hk
    exact ⟨_, List.getElem?_eq_getElem hk, C119_item none' g k _ k (List.getElem?_eq_getElem hk) (.inl rfl)⟩
  obtain ⟨t, e, h⟩ := scan_spec (fun i => g.item none' i) other g.verts.length g.verts.length 0 (by omega)
    (fun k hk => by
      obtain ⟨v, _, h⟩ := it k hk
      exact ⟨_, h, by simp⟩)
    (fun h => by omega) (Nat.zero_le _)
  have key : ∀ v, (⟨.point, [v], [], g.props, none', g.crs⟩ : Geo P D).eq other = .ok true ↔
      Same (⟨.point, [v], [], g.props, none', g.crs⟩ : Geo P D) other := by
    intro v
    constructor
    · intro h
      obtain ⟨h1, h2, h3, h4, h5⟩ := eq_true h
      exact ⟨h1, h2, fun h => by simp at h, h3, h4, h5⟩
    · rintro ⟨h1, h2, -, h3, h4, h5⟩
      exact eq_of h1 h2 h3 h4 h5
  refine ⟨t, e, h.trans ⟨?_, ?_⟩⟩
  · rintro ⟨k, _, hk, p, hp, he⟩
    obtain ⟨v, hv, hi⟩ := it k hk
    rw [hi] at hp
    rw [← Except.ok.inj hp] at he
    exact ⟨v, List.mem_of_getElem? hv, (key v).mp he⟩
  · rintro ⟨v, hv, he⟩
    obtain ⟨k, hk⟩ := List.getElem?_of_mem hv
    have hlt := (List.getElem?_eq_some_iff.mp hk).1
    obtain ⟨w, hw, hi⟩ := it k hlt
    rw [hk] at hw
    cases hw
    exact ⟨k, Nat.zero_le _, hlt, _, hi, (key v).mpr he⟩

/-- **C153 (violated).** A polygon counts as a member although its holes are not those of any part: for every part of a collection of
polygons and any other holes, the polygon with those holes is reported to be in the collection. -/
theorem C153_violated_holes (merge : R → P → P) (none' : D) (c : Coll P R) (hc : c.WF) (i : Nat) (p : Geo P D)
    (hp : c.part merge none' i = .ok p) (holes : List (List (List Fl))) :
    c.has merge none' { p with subs := holes } = .ok true := by
  obtain ⟨t, e, h⟩ := has_spec merge none' c hc { p with subs := holes }
  unfold Coll.part at hp
  cases hr : c.rows[i]? with
  | none => rw [hr] at hp; cases hp
  | some r =>
    cases hv : c.parts[i]? with
    | none => rw [hr] at hp; dsimp only at hp; rw [hv] at hp; cases hp
    | some v =>
      rw [hr] at hp; dsimp only at hp; rw [hv] at hp
      rw [e, h.mpr ⟨i, r, v, hr, hv, ?_⟩]
      have : c.geometry merge none' r v = p := Except.ok.inj hp
      rw [this]
      exact C117_violated_holes p holes

/-! ### A collection that meets the hypotheses -/

/-- Two triangles, the first with a triangular hole, with one row each. -/
def triangles : Coll (List (String × ℚ)) (List (String × ℚ)) :=
  { kind := .polygon
    parts := [([[.num 0, .num 0], [.num 9, .num 0], [.num 0, .num 9]], [[[.num 1, .num 1], [.num 2, .num 1], [.num 1, .num 2]]]),
      ([[.num 20, .num 0], [.num 29, .num 0], [.num 20, .num 9]], [])]
    rows := [[("a", 5)], [("a", 6)]]
    props := [("b", 1)]
    crs := ⟨0, .cartesian, "", "", "Cartesian"⟩ }

example : triangles.WF := ⟨rfl, by decide⟩

/-- The second triangle is found, with the attributes it has in the collection, and not with others; the first is found although the
hole is filled. -/
example : triangles.has (fun r p => r ++ p) ()
      ⟨.polygon, [[.num 20, .negZero], [.num 29, .num 0], [.num 20, .num 9]], [], [("a", 6), ("b", 1)], (), triangles.crs⟩ = .ok true ∧
    triangles.has (fun r p => r ++ p) ()
      ⟨.polygon, [[.num 20, .num 0], [.num 29, .num 0], [.num 20, .num 9]], [], [("b", 1)], (), triangles.crs⟩ = .ok false ∧
    triangles.has (fun r p => r ++ p) ()
      ⟨.polygon, [[.num 0, .num 0], [.num 9, .num 0], [.num 0, .num 9]], [], [("a", 5), ("b", 1)], (), triangles.crs⟩ = .ok true := by
  refine ⟨?_, ?_, ?_⟩ <;> decide +kernel

end Karta.Obj
