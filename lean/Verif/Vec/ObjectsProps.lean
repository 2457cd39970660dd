import Verif.Vec.Objects
import Verif.Band.IndexerLemmas
import Mathlib.Tactic.Linarith

/-!
# Properties of geometry objects as Python values: C117-C121
-/

namespace Karta.Obj
open Karta

variable {P D : Type} [DecidableEq P] [DecidableEq D]

/-! ### Specification -/

/-- The positions of the vertices. -/
def positions (vs : List (List Fl)) : List (List ℚ) := vs.map (List.map Fl.val)

/-- The two geometries are of one kind and agree in vertices, holes (polygons), attributes (of the geometry and, for multipoints, of the
points) and coordinate system. -/
structure Same (a b : Geo P D) : Prop where
  kind : a.kind = b.kind
  verts : positions a.verts = positions b.verts
  subs : a.kind = .polygon → a.subs.map positions = b.subs.map positions
  props : a.props = b.props
  data : a.kind = .multipoint → a.data = b.data
  crs : a.crs.eq b.crs = true

/-- Objects with the same identity are the same. -/
def Identities (cs : List Crs) : Prop := ∀ x ∈ cs, ∀ y ∈ cs, x.obj = y.obj → x = y

/-! ### C117: equality -/

theorem crs_refl (c : Crs) : c.eq c = true := by
  unfold Crs.eq
  by_cases h : c.kind = .projected
  · simp [h]
  · simp [h]

theorem crs_symm (a b : Crs) : a.eq b = b.eq a := by
  unfold Crs.eq
  by_cases h : a.kind = .projected ∨ b.kind = .projected
  · rw [if_pos h, if_pos h.symm]
    apply decide_eq_decide.2
    constructor
    · rintro ⟨h1, h2, h3, h4⟩; exact ⟨h2, h1, h3.symm, h4.symm⟩
    · rintro ⟨h1, h2, h3, h4⟩; exact ⟨h2, h1, h3.symm, h4.symm⟩
  · rw [if_neg h, if_neg (fun h' => h h'.symm)]
    exact decide_eq_decide.2 eq_comm

theorem crs_trans {a b c : Crs} (hi : Identities [a, b, c])
    (hp : b.kind = .projected → a.kind = .projected ∨ c.kind = .projected)
    (h1 : a.eq b = true) (h2 : b.eq c = true) : a.eq c = true := by
  have ab : a.obj = b.obj → a = b := hi a (by simp) b (by simp)
  have bc : b.obj = c.obj → b = c := hi b (by simp) c (by simp)
  by_cases hab : a.kind = .projected ∨ b.kind = .projected
  · have h1' := h1
    unfold Crs.eq at h1'
    rw [if_pos hab] at h1'
    obtain ⟨x1, x2, x3, x4⟩ := of_decide_eq_true h1'
    by_cases hbc : b.kind = .projected ∨ c.kind = .projected
    · unfold Crs.eq at h2
      rw [if_pos hbc] at h2
      obtain ⟨y1, y2, y3, y4⟩ := of_decide_eq_true h2
      unfold Crs.eq
      rw [if_pos (by tauto)]
      exact decide_eq_true ⟨x1, y2, x3.trans y3, x4.trans y4⟩
    · unfold Crs.eq at h2
      rw [if_neg hbc] at h2
      rw [← bc (of_decide_eq_true h2)]
      exact h1
  · unfold Crs.eq at h1
    rw [if_neg hab] at h1
    rw [ab (of_decide_eq_true h1)]
    exact h2

theorem sameCoords_iff (a b : List (List Fl)) : sameCoords a b = true ↔ positions a = positions b := by
  unfold sameCoords positions
  exact decide_eq_true_iff

theorem positions_length (a : List (List Fl)) : (positions a).length = a.length := by simp [positions]

/-- C117: every geometry equals itself. -/
theorem C117_refl (g : Geo P D) : g.eq g = .ok true := by
  have hs : sameCoords g.verts g.verts = true := (sameCoords_iff _ _).2 rfl
  unfold Geo.eq
  cases hk : g.kind <;> simp [hs, crs_refl, hk]

theorem sameCoords_symm (a b : List (List Fl)) : sameCoords a b = sameCoords b a := by
  unfold sameCoords
  exact decide_eq_decide.2 eq_comm

/-- C117: it does not matter which geometry is on the left, also when an exception is raised. -/
theorem C117_symm (a b : Geo P D) : a.eq b = b.eq a := by
  have hc := crs_symm a.crs b.crs
  have hv := sameCoords_symm a.verts b.verts
  have hp : decide (a.props = b.props) = decide (b.props = a.props) := decide_eq_decide.2 eq_comm
  have hd : decide (a.data = b.data) = decide (b.data = a.data) := decide_eq_decide.2 eq_comm
  have hl : decide (a.verts.length = b.verts.length) = decide (b.verts.length = a.verts.length) := decide_eq_decide.2 eq_comm
  unfold Geo.eq
  cases ha : a.kind <;> cases hb : b.kind <;> simp only [hc, hv, hp, hl] <;> try rfl
  · simp only [true_and, if_true]
    by_cases h1 : a.verts.length = b.verts.length
    · rw [if_pos h1, if_pos h1.symm]
      by_cases h2 : rank a.verts = rank b.verts
      · rw [if_pos h2, if_pos h2.symm, hd]
      · rw [if_neg h2, if_neg (fun h => h2 h.symm)]
    · rw [if_neg h1, if_neg (fun h => h1 h.symm)]

/-- Geometries that compare equal are alike in everything but holes. -/
theorem eq_true {a b : Geo P D} (h : a.eq b = .ok true) :
    a.kind = b.kind ∧ positions a.verts = positions b.verts ∧ a.props = b.props ∧ (a.kind = .multipoint → a.data = b.data) ∧
      a.crs.eq b.crs = true := by
  unfold Geo.eq at h
  cases ha : a.kind
  · rw [ha] at h
    simp only [Except.ok.injEq, Bool.and_eq_true, decide_eq_true_iff, sameCoords_iff] at h
    exact ⟨h.1.1.1.symm, h.1.1.2, h.1.2, by simp, h.2⟩
  · rw [ha] at h
    simp only [Except.ok.injEq, Bool.and_eq_true, decide_eq_true_iff, sameCoords_iff] at h
    exact ⟨h.1.1.1.1, h.1.1.2, h.1.2, by simp, h.2⟩
  · rw [ha] at h
    simp only [Except.ok.injEq, Bool.and_eq_true, decide_eq_true_iff, sameCoords_iff] at h
    exact ⟨h.1.1.1.1, h.1.1.2, h.1.2, by simp, h.2⟩
  · rw [ha] at h
    dsimp only at h
    by_cases h1 : Kind.multipoint = b.kind ∧ a.verts.length = b.verts.length
    · rw [if_pos h1] at h
      by_cases h2 : rank a.verts = rank b.verts
      · rw [if_pos h2] at h
        simp only [Except.ok.injEq, Bool.and_eq_true, decide_eq_true_iff, sameCoords_iff] at h
        exact ⟨h1.1, h.1.1.1, h.1.2, fun _ => h.1.1.2, h.2⟩
      · rw [if_neg h2] at h; cases h
    · rw [if_neg h1] at h; simp at h

theorem positions_rank {a b : List (List Fl)} (h : positions a = positions b) : rank a = rank b := by
  unfold positions at h
  cases a <;> cases b <;> simp_all [rank]
  have := congrArg List.length h.1
  simpa using this

theorem eq_of {a b : Geo P D} (hk : a.kind = b.kind) (hv : positions a.verts = positions b.verts) (hp : a.props = b.props)
    (hd : a.kind = .multipoint → a.data = b.data) (hc : a.crs.eq b.crs = true) : a.eq b = .ok true := by
  have hl : a.verts.length = b.verts.length := by rw [← positions_length, hv, positions_length]
  have hv' := (sameCoords_iff _ _).2 hv
  have hr := positions_rank hv
  unfold Geo.eq
  cases ha : a.kind
  · rw [ha] at hk; simp [← hk, hv', hp, hc]
  · rw [ha] at hk; simp [← hk, hl, hv', hp, hc]
  · rw [ha] at hk; simp [← hk, hl, hv', hp, hc]
  · have hd' := hd ha
    rw [ha] at hk; simp [← hk, hl, hv', hp, hc, hr, hd']

/-- C117 in part: geometries without holes compare equal exactly when they are the same.  Missing: holes, see `C117_violated_holes`. -/
theorem C117_exact_partial (a b : Geo P D) (ha : a.subs = []) (hb : b.subs = []) : a.eq b = .ok true ↔ Same a b := by
  constructor
  · intro h
    obtain ⟨h1, h2, h3, h4, h5⟩ := eq_true h
    exact ⟨h1, h2, fun _ => by rw [ha, hb], h3, h4, h5⟩
  · rintro ⟨h1, h2, -, h3, h4, h5⟩
    exact eq_of h1 h2 h3 h4 h5

/-- C117 in part: equality is transitive unless a projected system lies between two others.  Missing: see `C117_violated_transitive`. -/
theorem C117_trans_partial (a b c : Geo P D) (hi : Identities [a.crs, b.crs, c.crs])
    (hp : b.crs.kind = .projected → a.crs.kind = .projected ∨ c.crs.kind = .projected)
    (h1 : a.eq b = .ok true) (h2 : b.eq c = .ok true) : a.eq c = .ok true := by
  obtain ⟨x1, x2, x3, x4, x5⟩ := eq_true h1
  obtain ⟨y1, y2, y3, y4, y5⟩ := eq_true h2
  exact eq_of (x1.trans y1) (x2.trans y2) (x3.trans y3) (fun h => (x4 h).trans (y4 (x1 ▸ h))) (crs_trans hi hp x5 y5)

/-- C117 is false for holes: a polygon compares equal to the same polygon with any other holes. -/
theorem C117_violated_holes (g : Geo P D) (holes : List (List (List Fl))) : g.eq { g with subs := holes } = .ok true :=
  eq_of rfl rfl rfl (fun _ => rfl) (crs_refl _)

/-- C117 is false for multipoints with as many points and different numbers of coordinates: the comparison raises. -/
theorem C117_violated_ranks (a b : Geo P D) (ha : a.kind = .multipoint) (hb : b.kind = .multipoint)
    (hl : a.verts.length = b.verts.length) (hr : rank a.verts ≠ rank b.verts) : a.eq b = .error .valueError := by
  unfold Geo.eq
  rw [ha]
  dsimp only
  rw [if_pos ⟨hb.symm, hl⟩, if_neg hr]

/-- C117 is false across a projected system: two geographical systems with the same definition differ, and both equal a projected one. -/
theorem C117_violated_transitive (g : Geo P D) (s i n : String) :
    ∃ a b c : Crs, Identities [a, b, c] ∧ ({ g with crs := a } : Geo P D).eq { g with crs := b } = .ok true ∧
      ({ g with crs := b } : Geo P D).eq { g with crs := c } = .ok true ∧
      ({ g with crs := a } : Geo P D).eq { g with crs := c } = .ok false := by
  refine ⟨⟨0, .geographical, s, i, n⟩, ⟨1, .projected, s, i, n⟩, ⟨2, .geographical, s, i, n⟩, ?_, ?_, ?_, ?_⟩
  · intro x hx y hy h
    simp only [List.mem_cons, List.not_mem_nil, or_false] at hx hy
    rcases hx with rfl | rfl | rfl <;> rcases hy with rfl | rfl | rfl <;> simp_all
  · exact eq_of rfl rfl rfl (fun _ => rfl) (by simp [Crs.eq])
  · exact eq_of rfl rfl rfl (fun _ => rfl) (by simp [Crs.eq])
  · have hf : Crs.eq ⟨0, .geographical, s, i, n⟩ ⟨2, .geographical, s, i, n⟩ = false := by simp [Crs.eq]
    unfold Geo.eq
    cases hk : g.kind <;> simp [hf, hk]

/-! ### C118: hashes -/

theorem hash_congr (h : Hashes) {a b : Geo P D} (hk : a.kind = b.kind) (hn : a.crs.name = b.crs.name)
    (hp : a.kind = .point → positions a.verts = positions b.verts) (hv : a.kind ≠ .point → a.verts = b.verts) :
    a.hash h = b.hash h := by
  unfold Geo.hash
  by_cases ha : a.kind = .point
  · have hb := hk ▸ ha
    have e : (a.verts.headD []).map Fl.val = (b.verts.headD []).map Fl.val := by
      have := hp ha
      unfold positions at this
      cases h1 : a.verts <;> cases h2 : b.verts <;> simp_all
    simp only [ha, hb, hn, e]
  · have hb : b.kind ≠ .point := hk ▸ ha
    have e := hv ha
    cases h1 : a.kind <;> simp_all <;> rw [← hk]

theorem verts_of_positions {a b : List (List Fl)} (ha : ∀ v ∈ a, Fl.negZero ∉ v) (hb : ∀ v ∈ b, Fl.negZero ∉ v)
    (h : positions a = positions b) : a = b := by
  have one : ∀ u v : List Fl, Fl.negZero ∉ u → Fl.negZero ∉ v → u.map Fl.val = v.map Fl.val → u = v := by
    intro u
    induction u with
    | nil => intro v _ _ h; cases v <;> simp_all
    | cons x xs ih =>
      intro v hu hv h
      cases v with
      | nil => simp at h
      | cons y ys =>
        simp only [List.map_cons, List.cons.injEq] at h
        simp only [List.mem_cons, not_or] at hu hv
        rw [ih ys hu.2 hv.2 h.2]
        cases x with
        | negZero => exact absurd rfl hu.1
        | num p =>
          cases y with
          | negZero => exact absurd rfl hv.1
          | num q => simp only [Fl.val] at h; rw [h.1]
  unfold positions at h
  induction a generalizing b with
  | nil => cases b <;> simp_all
  | cons x xs ih =>
    cases b with
    | nil => simp at h
    | cons y ys =>
      simp only [List.map_cons, List.cons.injEq] at h
      rw [one x y (ha x (by simp)) (hb y (by simp)) h.1,
        ih (fun v hv => ha v (by simp [hv])) (fun v hv => hb v (by simp [hv])) h.2]

/-- C118 in part: equal points in systems of one name have the same hash.  Missing: names, see `C118_violated_names`. -/
theorem C118_points_partial (h : Hashes) (a b : Geo P D) (hk : a.kind = .point) (he : a.eq b = .ok true)
    (hn : a.crs.name = b.crs.name) : a.hash h = b.hash h := by
  obtain ⟨h1, h2, -⟩ := eq_true he
  exact hash_congr h h1 hn (fun _ => h2) (fun h' => absurd hk h')

/-- C118 in part: the same for the other geometries without negative zeros.  Missing: see `C118_violated_zero`. -/
theorem C118_others_partial (h : Hashes) (a b : Geo P D) (he : a.eq b = .ok true)
    (hn : a.crs.name = b.crs.name) (ha : ∀ v ∈ a.verts, Fl.negZero ∉ v) (hb : ∀ v ∈ b.verts, Fl.negZero ∉ v) :
    a.hash h = b.hash h := by
  obtain ⟨h1, h2, -⟩ := eq_true he
  exact hash_congr h h1 hn (fun _ => h2) (fun _ => verts_of_positions ha hb h2)

/-- C118 is false for projected systems with one definition and two names. -/
theorem C118_violated_names (h : Hashes) (g : Geo P D) (s i n m : String)
    (hh : h.str ("<CRS " ++ n ++ ">") ≠ h.str ("<CRS " ++ m ++ ">")) :
    ∃ a b : Crs, ({ g with crs := a } : Geo P D).eq { g with crs := b } = .ok true ∧
      ({ g with crs := a } : Geo P D).hash h ≠ ({ g with crs := b } : Geo P D).hash h := by
  refine ⟨⟨0, .projected, s, i, n⟩, ⟨1, .projected, s, i, m⟩, eq_of rfl rfl rfl (fun _ => rfl) (by simp [Crs.eq]), ?_⟩
  intro e
  apply hh
  unfold Geo.hash at e
  dsimp only at e
  omega

/-- C118 is false for lines, polygons and multipoints with a negative zero in place of a zero. -/
theorem C118_violated_zero (h : Hashes) (g : Geo P D) (hk : g.kind ≠ .point) (x : Fl)
    (hh : h.bytes [.num 0, x] ≠ h.bytes [.negZero, x]) :
    ({ g with verts := [[.num 0, x]] } : Geo P D).eq { g with verts := [[.negZero, x]] } = .ok true ∧
      ({ g with verts := [[.num 0, x]] } : Geo P D).hash h ≠ ({ g with verts := [[.negZero, x]] } : Geo P D).hash h := by
  refine ⟨eq_of rfl (by simp [positions, Fl.val]) rfl (fun _ => rfl) (crs_refl _), ?_⟩
  intro e
  apply hh
  unfold Geo.hash at e
  cases hk' : g.kind
  · exact absurd hk' hk
  all_goals
    simp only [hk', List.flatten_cons, List.flatten_nil, List.append_nil] at e
    omega

/-! ### C119: indexing -/

/-- C119: `g[i]` is the point at position `i`, counted from the end if negative, with the attributes and coordinate system of `g`. -/
theorem C119_item (none' : D) (g : Geo P D) (i : Int) (v : List Fl) (k : Nat) (hk : g.verts[k]? = some v)
    (hi : i = k ∨ i = (k : Int) - g.verts.length) : g.item none' i = .ok ⟨.point, [v], [], g.props, none', g.crs⟩ := by
  have hlt : k < g.verts.length := (List.getElem?_eq_some_iff.1 hk).1
  unfold Geo.item vertexAt Py.index?
  rcases hi with rfl | rfl
  · rw [if_pos (by omega)]
    simp [hk, Except.map]
  · rw [if_neg (by omega), if_pos (by omega)]
    have : ((k : Int) - g.verts.length + g.verts.length).toNat = k := by omega
    simp only [this, hk, Except.map]

/-- C119: any other position is refused. -/
theorem C119_item_refused (none' : D) (g : Geo P D) (i : Int) (hi : i < -(g.verts.length : Int) ∨ (g.verts.length : Int) ≤ i) :
    g.item none' i = .error .indexError := by
  unfold Geo.item vertexAt Py.index?
  rcases hi with h | h
  · rw [if_neg (by omega), if_neg (by omega)]; rfl
  · rw [if_pos (by omega)]
    have : g.verts[i.toNat]? = none := by rw [List.getElem?_eq_none_iff]; omega
    simp [this, Except.map]

theorem mapM_ok {A B : Type} (f : A → Except Err B) (r : A → B) (l : List A) (h : ∀ a ∈ l, f a = .ok (r a)) :
    l.mapM f = .ok (l.map r) := by
  induction l with
  | nil => rfl
  | cons a l ih =>
    rw [List.mapM_cons, h a (by simp), ih fun b hb => h b (by simp [hb])]
    rfl

/-- C119: iterating gives the points of all vertices in order. -/
theorem C119_iter (none' : D) (g : Geo P D) :
    g.iter none' = .ok (g.verts.map fun v => ⟨.point, [v], [], g.props, none', g.crs⟩) := by
  unfold Geo.iter
  rw [mapM_ok _ (fun i => ⟨.point, [(g.verts[i]?).getD []], [], g.props, none', g.crs⟩)]
  · congr 1
    apply List.ext_getElem?
    intro i
    by_cases h : i < g.verts.length
    · simp [List.getElem?_map, List.getElem?_range, h]
    · simp [List.getElem?_map, h]
  · intro i hi
    have hlt : i < g.verts.length := List.mem_range.1 hi
    rw [C119_item none' g i g.verts[i] i (List.getElem?_eq_getElem hlt) (Or.inl rfl), List.getElem?_eq_getElem hlt]
    rfl

/-- The vertices picked by a slice: those at `range(*s.indices(n))`. -/
def Picked (vs : List (List Fl)) (s : Py.Slice) (out : List (List Fl)) : Prop :=
  ∃ a b c, s.indices vs.length = .ok (a, b, c) ∧ (Py.range a b c).map (fun i => vs[i.toNat]?) = out.map some

theorem range_inside {n : Nat} {a b c : Int} (hc : c ≠ 0) (hp : 0 < c → 0 ≤ a ∧ a ≤ n ∧ 0 ≤ b ∧ b ≤ n)
    (hn : c < 0 → -1 ≤ a ∧ a ≤ (n : Int) - 1 ∧ -1 ≤ b ∧ b ≤ (n : Int) - 1) :
    ∀ i ∈ Py.range a b c, 0 ≤ i ∧ i < n := by
  intro i hi
  unfold Py.range at hi
  obtain ⟨k, hk, rfl⟩ := List.mem_map.1 hi
  rw [List.mem_range] at hk
  unfold Py.rangeLen at hk
  rcases lt_or_gt_of_ne hc with h | h
  · obtain ⟨h1, h2, h3, h4⟩ := hn h
    rw [if_neg (by omega), if_pos h] at hk
    by_cases hab : b < a
    · rw [if_pos hab] at hk
      have hq := Int.mul_ediv_self_le (x := a - b - 1) (k := -c) (by omega)
      have hq0 : 0 ≤ (a - b - 1) / (-c) := Int.ediv_nonneg (by omega) (by omega)
      have hk' : (k : Int) ≤ (a - b - 1) / (-c) := by omega
      have hk0 : (0 : Int) ≤ k := by omega
      constructor <;> nlinarith
    · rw [if_neg hab] at hk; omega
  · obtain ⟨h1, h2, h3, h4⟩ := hp h
    rw [if_pos h] at hk
    by_cases hab : a < b
    · rw [if_pos hab] at hk
      have hq := Int.mul_ediv_self_le (x := b - a - 1) (k := c) (by omega)
      have hq0 : 0 ≤ (b - a - 1) / c := Int.ediv_nonneg (by omega) (by omega)
      have hk' : (k : Int) ≤ (b - a - 1) / c := by omega
      have hk0 : (0 : Int) ≤ k := by omega
      constructor <;> nlinarith
    · rw [if_neg hab] at hk; omega

theorem filterMap_some {A B : Type} (f : A → Option B) (l : List A) (h : ∀ a ∈ l, (f a).isSome) :
    (l.filterMap f).map some = l.map f := by
  induction l with
  | nil => rfl
  | cons a l ih =>
    obtain ⟨b, hb⟩ := Option.isSome_iff_exists.1 (h a (by simp))
    rw [List.filterMap_cons_some hb, List.map_cons, List.map_cons, ih (fun x hx => h x (by simp [hx])), hb]

theorem vertexSlice_spec {vs : List (List Fl)} {s : Py.Slice} {a b c : Int} (h : s.indices vs.length = .ok (a, b, c)) :
    Picked vs s (vertexSlice vs a b c) ∧ (vertexSlice vs a b c).length = Py.rangeLen a b c := by
  obtain ⟨h1, h2, h3⟩ := Band.indices_bounds h
  have hin := range_inside h1 h2 h3
  have e : (vertexSlice vs a b c).map some = (Py.range a b c).map fun i => vs[i.toNat]? := by
    unfold vertexSlice
    apply filterMap_some
    intro i hi
    have := hin i hi
    rw [List.getElem?_eq_getElem (by omega)]
    rfl
  refine ⟨⟨a, b, c, h, e.symm⟩, ?_⟩
  have := congrArg List.length e
  simpa [Py.range] using this

/-- C119: a slice of a line is a line through the vertices that Python's slice picks, with the attributes and coordinate system. -/
theorem C119_slice_line (none' : D) (g : Geo P D) (hk : g.kind ≠ .polygon) (s : Py.Slice) (hs : s.step ≠ some 0) :
    ∃ out, g.slice none' s = .ok ⟨g.kind, out, [], g.props, none', g.crs⟩ ∧ Picked g.verts s out := by
  unfold Geo.slice
  cases h : s.indices g.verts.length with
  | error e =>
    exfalso
    unfold Py.Slice.indices at h
    simp only at h
    split at h
    · rename_i h0
      cases hst : s.step with
      | none => rw [hst] at h0; simp at h0
      | some v => rw [hst] at h0; simp only [Option.getD_some] at h0; rw [h0] at hst; exact hs hst
    · cases h
  | ok r =>
    obtain ⟨a, b, c⟩ := r
    dsimp only
    rw [if_neg (fun h' => hk h'.1)]
    exact ⟨_, rfl, (vertexSlice_spec h).1⟩

/-- C119: a step of zero is refused. -/
theorem C119_slice_refused (none' : D) (g : Geo P D) (s : Py.Slice) (hs : s.step = some 0) :
    g.slice none' s = .error .valueError := by
  unfold Geo.slice Py.Slice.indices
  simp [hs]

theorem whole_forward (vs : List (List Fl)) : vertexSlice vs 0 vs.length 1 = vs := by
  unfold vertexSlice Py.range
  have : Py.rangeLen 0 vs.length 1 = vs.length := by
    unfold Py.rangeLen
    by_cases h : (0 : Int) < vs.length
    · rw [if_pos (by norm_num), if_pos h]; simp
    · rw [if_pos (by norm_num), if_neg h]; omega
  rw [this, List.filterMap_map]
  have e := filterMap_some (fun k : Nat => vs[k]?) (List.range vs.length) (by intro k hk; simpa using hk)
  have hf : ((fun i : Int => vs[i.toNat]?) ∘ fun k : Nat => (0 : Int) + k * 1) = fun k : Nat => vs[k]? := by
    funext k; simp
  rw [hf]
  apply List.map_injective_iff.2 (Option.some_injective _)
  rw [e]
  apply List.ext_getElem?
  intro i
  by_cases h : i < vs.length
  · simp [h]
  · simp [h]

theorem whole_backward (vs : List (List Fl)) : vertexSlice vs ((vs.length : Int) - 1) (-1) (-1) = vs.reverse := by
  unfold vertexSlice Py.range
  have : Py.rangeLen ((vs.length : Int) - 1) (-1) (-1) = vs.length := by
    unfold Py.rangeLen
    rw [if_neg (by norm_num), if_pos (by norm_num)]
    by_cases h : (-1 : Int) < (vs.length : Int) - 1
    · rw [if_pos h]; simp
    · rw [if_neg h]; omega
  rw [this, List.filterMap_map]
  have e := filterMap_some (fun k : Nat => vs[((vs.length : Int) - 1 + k * -1).toNat]?) (List.range vs.length) (by
    intro k hk
    rw [List.mem_range] at hk
    rw [List.getElem?_eq_getElem (by omega)]
    rfl)
  apply List.map_injective_iff.2 (Option.some_injective _)
  rw [show ((fun i : Int => vs[i.toNat]?) ∘ fun k : Nat => ((vs.length : Int) - 1 + k * -1)) =
    fun k : Nat => vs[((vs.length : Int) - 1 + k * -1).toNat]? from rfl, e]
  apply List.ext_getElem?
  intro i
  by_cases h : i < vs.length
  · simp only [List.getElem?_map, List.getElem?_range h, Option.map_some, List.getElem?_reverse h]
    have : ((vs.length : Int) - 1 + i * -1).toNat = vs.length - 1 - i := by omega
    rw [this, List.getElem?_eq_getElem (by omega)]
    rfl
  · simp [h]

/-- C119 in part: a slice of a polygon with at least two vertices is a line through the vertices that the slice picks, unless it picks
them all, forwards or backwards: then it is a polygon.  Missing: the holes, see `C119_violated_holes`. -/
theorem C119_slice_polygon_partial (none' : D) (g : Geo P D) (hk : g.kind = .polygon) (h2 : 2 ≤ g.verts.length) (s : Py.Slice)
    (hs : s.step ≠ some 0) :
    ∃ kind out, g.slice none' s = .ok ⟨kind, out, [], g.props, none', g.crs⟩ ∧ Picked g.verts s out ∧
      ((kind = .polygon ∧ (out = g.verts ∨ out = g.verts.reverse)) ∨ (kind = .line ∧ out.length < g.verts.length)) := by
  unfold Geo.slice
  cases h : s.indices g.verts.length with
  | error e =>
    exfalso
    unfold Py.Slice.indices at h
    simp only at h
    split at h
    · rename_i h0
      cases hst : s.step with
      | none => rw [hst] at h0; simp at h0
      | some v => rw [hst] at h0; simp only [Option.getD_some] at h0; rw [h0] at hst; exact hs hst
    · cases h
  | ok r =>
    obtain ⟨a, b, c⟩ := r
    dsimp only
    obtain ⟨hc, hp, hn⟩ := Band.indices_bounds h
    obtain ⟨hP, hL⟩ := vertexSlice_spec h
    by_cases hq : (g.verts.length : Int) ≠ Int.fdiv (b - a) c
    · rw [if_pos ⟨hk, hq⟩]
      refine ⟨_, _, rfl, hP, Or.inr ⟨rfl, ?_⟩⟩
      rw [hL]
      unfold Py.rangeLen
      rcases lt_or_gt_of_ne hc with hneg | hpos
      · obtain ⟨a1, a2, b1, b2⟩ := hn hneg
        rw [if_neg (by omega), if_pos hneg]
        by_cases hab : b < a
        · rw [if_pos hab]
          by_contra hge
          have hq0 := Int.mul_ediv_self_le (x := a - b - 1) (k := -c) (by omega)
          have hge' : (g.verts.length : Int) - 1 ≤ (a - b - 1) / (-c) := by omega
          have hc1 : c = -1 := by
            by_contra hne
            have : (2 : Int) ≤ -c := by omega
            nlinarith
          subst hc1
          apply hq
          have ha : a = (g.verts.length : Int) - 1 := by simp at hge'; omega
          have hb : b = -1 := by simp at hge'; omega
          rw [ha, hb, Int.fdiv_eq_ediv]
          simp
        · rw [if_neg hab]; omega
      · obtain ⟨a1, a2, b1, b2⟩ := hp hpos
        rw [if_pos hpos]
        by_cases hab : a < b
        · rw [if_pos hab]
          by_contra hge
          have hq0 := Int.mul_ediv_self_le (x := b - a - 1) (k := c) (by omega)
          have hge' : (g.verts.length : Int) - 1 ≤ (b - a - 1) / c := by omega
          have hc1 : c = 1 := by
            by_contra hne
            have : (2 : Int) ≤ c := by omega
            nlinarith
          subst hc1
          apply hq
          have ha : a = 0 := by simp at hge'; omega
          have hb : b = g.verts.length := by simp at hge'; omega
          rw [ha, hb, Int.fdiv_eq_ediv]
          simp
        · rw [if_neg hab]; omega
    · rw [if_neg (fun h' => hq h'.2)]
      refine ⟨_, _, rfl, hP, Or.inl ⟨hk, ?_⟩⟩
      have hq' : (g.verts.length : Int) = Int.fdiv (b - a) c := by simpa using hq
      have hmul : (b - a).fmod c + c * (b - a).fdiv c = b - a := Int.fmod_add_mul_fdiv _ _
      rw [← hq'] at hmul
      rcases lt_or_gt_of_ne hc with hneg | hpos
      · obtain ⟨a1, a2, b1, b2⟩ := hn hneg
        have hm : (b - a).fmod c ≤ 0 := by
          have := Int.fmod_nonneg_of_pos (-(b - a)) (b := -c) (by omega)
          rw [Int.neg_fmod_neg] at this
          omega
        have hc1 : c = -1 := by
          by_contra hne
          have : c ≤ -2 := by omega
          nlinarith
        subst hc1
        right
        have ha : a = (g.verts.length : Int) - 1 := by omega
        have hb : b = -1 := by omega
        rw [ha, hb]
        exact whole_backward _
      · obtain ⟨a1, a2, b1, b2⟩ := hp hpos
        have hm : 0 ≤ (b - a).fmod c := Int.fmod_nonneg_of_pos _ hpos
        have hc1 : c = 1 := by
          by_contra hne
          have : 2 ≤ c := by omega
          nlinarith
        subst hc1
        left
        have ha : a = 0 := by omega
        have hb : b = g.verts.length := by omega
        rw [ha, hb]
        exact whole_forward _

/-- C119 is false for holes: `polygon[:]` has none. -/
theorem C119_violated_holes (none' : D) (g : Geo P D) (hk : g.kind = .polygon) :
    g.slice none' .all = .ok ⟨.polygon, g.verts, [], g.props, none', g.crs⟩ := by
  have h : Py.Slice.all.indices g.verts.length = .ok (0, g.verts.length, 1) := by simp [Py.Slice.all, Py.Slice.indices]
  unfold Geo.slice
  rw [h]
  dsimp only
  rw [if_neg (by simp [Int.fdiv_eq_ediv]), whole_forward, hk]

/-! ### C120: conversions between points, lines and polygons -/

/-- C120: `to_line` gives the boundary as a closed line. -/
theorem C120_to_line (none' : D) (g : Geo P D) (v : List Fl) (hv : g.verts.head? = some v) :
    ∃ l, g.toLine none' = .ok l ∧ l.kind = .line ∧ l.verts = g.verts ++ [v] ∧ l.verts.getLast? = l.verts.head? ∧ l.props = g.props ∧
      l.crs = g.crs := by
  cases hg : g.verts with
  | nil => rw [hg] at hv; cases hv
  | cons w ws =>
    rw [hg] at hv
    cases hv
    refine ⟨⟨.line, g.verts ++ [v], [], g.props, none', g.crs⟩, ?_, rfl, by rw [hg], ?_, rfl, rfl⟩
    · unfold Geo.toLine vertexAt Py.index?
      simp [hg, Except.map]
    · rw [hg, List.getLast?_append]
      rfl

/-- C120 in part: `Multipoint(points, crs=c)` has the position of every point in that system; without `crs`, in that of the first point. -/
theorem C120_multipoint_partial (move : Crs → Crs → Fl × Fl → Fl × Fl) (none' : D) (p0 : P) (pts : List (Geo P D)) (crs : Option Crs)
    (dflt : Crs) : ∃ c, (multiFromPoints move none' p0 pts crs dflt).crs = c ∧ (∀ c', crs = some c' → c = c') ∧
      (crs = none → ∀ p, pts.head? = some p → c = p.crs) ∧
      (multiFromPoints move none' p0 pts crs dflt).verts.length = pts.length ∧
      ∀ (i : Nat) (p : Geo P D) (x y : Fl) (z : List Fl), pts[i]? = some p → p.verts = [x :: y :: z] →
        (c.eq p.crs = true → (multiFromPoints move none' p0 pts crs dflt).verts[i]? = some (x :: y :: z)) ∧
        (c.eq p.crs = false → (multiFromPoints move none' p0 pts crs dflt).verts[i]? =
          some [(move p.crs c (x, y)).1, (move p.crs c (x, y)).2]) := by
  refine ⟨_, rfl, ?_, ?_, by simp [multiFromPoints], ?_⟩
  · rintro c' rfl; rfl
  · rintro rfl p hp
    cases pts with
    | nil => cases hp
    | cons q qs => cases hp; rfl
  · intro i p x y z hi hp
    have key : ∀ c, ((pts.map fun p => p.vertexIn move c))[i]? = some (p.vertexIn move c) := by
      intro c; rw [List.getElem?_map, hi]; rfl
    constructor
    · intro hc
      refine (key (multiFromPoints move none' p0 pts crs dflt).crs).trans ?_
      unfold Geo.vertexIn
      rw [if_pos hc, hp]; rfl
    · intro hc
      refine (key (multiFromPoints move none' p0 pts crs dflt).crs).trans ?_
      unfold Geo.vertexIn
      rw [if_neg (by rw [hc]; simp), hp]; rfl

/-- C120 in part: lines and polygons through points of one system have their positions.  Missing: points of several systems, see
`C120_violated_line`. -/
theorem C120_line_partial (kind : Kind) (none' : D) (p0 : P) (pts : List (Geo P D)) (c : Crs) (hne : pts ≠ [])
    (hc : ∀ p ∈ pts, p.crs = c) (dflt : Crs) :
    (fromPoints kind none' p0 pts none dflt).crs = c ∧
      ∀ (i : Nat) (p : Geo P D) (v : List Fl), pts[i]? = some p → p.verts = [v] →
        (fromPoints kind none' p0 pts none dflt).verts[i]? = some v := by
  constructor
  · cases pts with
    | nil => exact absurd rfl hne
    | cons p ps => exact hc p (by simp)
  · intro i p v hi hp
    simp only [fromPoints, List.getElem?_map, hi, Option.map_some, hp]
    rfl

/-- C120 is false for points of several systems: whatever system is asked for, the coordinates are not converted. -/
theorem C120_violated_line (kind : Kind) (none' : D) (p0 : P) (pts : List (Geo P D)) (crs : Option Crs) (dflt : Crs) (i : Nat)
    (p : Geo P D) (v : List Fl) (hi : pts[i]? = some p) (hp : p.verts = [v]) :
    (fromPoints kind none' p0 pts crs dflt).verts[i]? = some v := by
  simp only [fromPoints, List.getElem?_map, hi, Option.map_some, hp]
  rfl

/-- C120 is false for the way back: `polygon.to_line().to_polygon()` has a vertex more. -/
theorem C120_violated_there_and_back (none' : D) (g : Geo P D) (v : List Fl) (hv : g.verts.head? = some v) :
    (g.toLine none').map (fun l => (l.toPolygon none').verts.length) = .ok (g.verts.length + 1) := by
  obtain ⟨l, h1, -, h2, -⟩ := C120_to_line none' g v hv
  rw [h1]
  simp [Except.map, Geo.toPolygon, h2]

/-! ### C121: queries on vertices -/

theorem argmin_fold {K : Type} [LinearOrder K] (l : List K) (pre : List K) (i : Nat) (x : K) (hi : pre[i]? = some x)
    (hmin : ∀ j y, pre[j]? = some y → x ≤ y ∧ (j < i → x < y)) :
    let s := l.foldl (fun (s : Nat × K × Nat) y => if y < s.2.1 then (s.2.2, y, s.2.2 + 1) else (s.1, s.2.1, s.2.2 + 1)) (i, x, pre.length)
    ∃ z, (pre ++ l)[s.1]? = some z ∧ ∀ j y, (pre ++ l)[j]? = some y → z ≤ y ∧ (j < s.1 → z < y) := by
  induction l generalizing pre i x with
  | nil => simpa using ⟨x, hi, hmin⟩
  | cons a l ih =>
    have hlt : i < pre.length := (List.getElem?_eq_some_iff.1 hi).1
    have happ : pre ++ a :: l = (pre ++ [a]) ++ l := by simp
    have hlen : pre.length + 1 = (pre ++ [a]).length := by simp
    rw [List.foldl_cons, happ]
    dsimp only
    by_cases h : a < x
    · rw [if_pos h, hlen]
      refine ih (pre ++ [a]) pre.length a (by simp) ?_
      intro j y hj
      by_cases hj' : j < pre.length
      · rw [List.getElem?_append_left hj'] at hj
        have := (hmin j y hj).1
        exact ⟨(h.trans_le this).le, fun _ => h.trans_le this⟩
      · rw [List.getElem?_append_right (by omega)] at hj
        have hj0 : j = pre.length := by
          have := (List.getElem?_eq_some_iff.1 hj).1
          simp at this; omega
        subst hj0
        simp at hj
        subst hj
        exact ⟨le_refl _, fun h => absurd h (by omega)⟩
    · rw [if_neg h, hlen]
      refine ih (pre ++ [a]) i x (by rw [List.getElem?_append_left hlt]; exact hi) ?_
      intro j y hj
      by_cases hj' : j < pre.length
      · rw [List.getElem?_append_left hj'] at hj
        exact hmin j y hj
      · rw [List.getElem?_append_right (by omega)] at hj
        have hj0 : j = pre.length := by
          have := (List.getElem?_eq_some_iff.1 hj).1
          simp at this; omega
        subst hj0
        simp at hj
        subst hj
        exact ⟨not_lt.1 h, fun h => absurd h (by omega)⟩

/-- C121: `nearest_vertex_to` gives the first of the vertices at the smallest distance. -/
theorem C121_nearest_vertex {K : Type} [LinearOrder K] (none' : D) (d : Geo P D → K) (g : Geo P D) (hne : g.verts ≠ []) :
    ∃ i v, g.nearestVertex none' (fun p => .ok (d p)) = .ok i ∧ g.verts[i]? = some v ∧
      ∀ j w, g.verts[j]? = some w →
        d ⟨.point, [v], [], g.props, none', g.crs⟩ ≤ d ⟨.point, [w], [], g.props, none', g.crs⟩ ∧
        (j < i → d ⟨.point, [v], [], g.props, none', g.crs⟩ < d ⟨.point, [w], [], g.props, none', g.crs⟩) := by
  have hd : g.distancesTo none' (fun p => .ok (d p)) =
      .ok (g.verts.map fun v => d ⟨.point, [v], [], g.props, none', g.crs⟩) := by
    unfold Geo.distancesTo
    rw [C119_iter]
    dsimp only
    rw [mapM_ok _ d _ (fun _ _ => rfl), List.map_map]
    rfl
  unfold Geo.nearestVertex
  rw [hd]
  dsimp only
  cases hg : g.verts with
  | nil => exact absurd hg hne
  | cons v0 vs =>
    rw [List.map_cons, argmin]
    obtain ⟨z, h1, h2⟩ := argmin_fold (vs.map fun v => d ⟨.point, [v], [], g.props, none', g.crs⟩)
      [d ⟨.point, [v0], [], g.props, none', g.crs⟩] 0 _ rfl (by
        intro j y hj
        have := (List.getElem?_eq_some_iff.1 hj).1
        have hj0 : j = 0 := by simp at this; omega
        subst hj0
        simp at hj
        subst hj
        exact ⟨le_refl _, fun h => absurd h (by omega)⟩)
    have e : [d ⟨.point, [v0], [], g.props, none', g.crs⟩] ++ vs.map (fun v => d ⟨.point, [v], [], g.props, none', g.crs⟩) =
        (v0 :: vs).map fun v => d ⟨.point, [v], [], g.props, none', g.crs⟩ := rfl
    simp only [e] at h1 h2
    rw [List.getElem?_map, Option.map_eq_some_iff] at h1
    obtain ⟨v, hv, hz⟩ := h1
    refine ⟨_, v, rfl, hv, ?_⟩
    intro j w hj
    rw [hz]
    exact h2 j _ (by rw [List.getElem?_map, hj]; rfl)

/-- C121: without vertices there is no nearest one. -/
theorem C121_nearest_refused {K : Type} [LinearOrder K] (none' : D) (d : Geo P D → K) (g : Geo P D) (he : g.verts = []) :
    g.nearestVertex none' (fun p => .ok (d p)) = .error .valueError := by
  unfold Geo.nearestVertex Geo.distancesTo
  rw [C119_iter, he]
  rfl

/-- C121: `any_within_poly` says whether a vertex is inside. -/
theorem C121_any_within (none' : D) (inside : Geo P D → Bool) (g : Geo P D) :
    ∃ r, g.anyWithin none' (fun p => .ok (inside p)) = .ok r ∧
      (r = true ↔ ∃ v ∈ g.verts, inside ⟨.point, [v], [], g.props, none', g.crs⟩ = true) := by
  have key : ∀ l : List (Geo P D), anyLoop (fun p => .ok (inside p)) l = .ok (l.any inside) := by
    intro l
    induction l with
    | nil => rfl
    | cons p ps ih =>
      unfold anyLoop
      cases hp : inside p
      · simp [ih, hp]
      · simp [hp]
  refine ⟨(g.verts.map fun v => (⟨.point, [v], [], g.props, none', g.crs⟩ : Geo P D)).any inside, ?_, ?_⟩
  · unfold Geo.anyWithin
    rw [C119_iter]
    exact key _
  · simp [List.any_map]

/-! ### Cases that meet the hypotheses -/

/-- A projected system and a geographical one. -/
def exProj : Crs := ⟨1, .projected, "+proj=merc", "+a=1", "Mercator"⟩
def exGeog : Crs := ⟨2, .geographical, "+proj=lonlat", "+a=1", "WGS84"⟩

/-- A triangle and a line with attributes. -/
def exTriangle : Geo String Nat := ⟨.polygon, [[.num 0, .num 0], [.num 4, .num 0], [.num 0, .num 3]], [], "p", 0, exProj⟩
def exLine : Geo String Nat := ⟨.line, [[.num 5, .num 0], [.num 1, .num 1], [.num 1, .negZero], [.num 3, .num 0]], [], "l", 0, exGeog⟩

/-- C117: equal geometries, and geometries that differ in one coordinate. -/
example : exTriangle.eq { exTriangle with crs := { exProj with obj := 7, name := "other" } } = .ok true := by decide +kernel
example : exTriangle.eq { exTriangle with verts := [[.num 0, .num 0], [.num 4, .num 0], [.num 0, .num 2]] } = .ok false := by decide +kernel
example : Identities [exProj, exGeog, exProj] := by
  intro x hx y hy h
  simp only [List.mem_cons, List.not_mem_nil, or_false] at hx hy
  rcases hx with rfl | rfl | rfl <;> rcases hy with rfl | rfl | rfl <;> simp_all [exProj, exGeog]

/-- C117, violations: two multipoints of one point with two and three coordinates. -/
example : ({ exLine with kind := .multipoint, verts := [[.num 0, .num 0]] } : Geo String Nat).eq
    { exLine with kind := .multipoint, verts := [[.num 0, .num 0, .num 0]] } = .error .valueError := by decide +kernel

/-- C118: a hash that tells names and representations apart. -/
def exHashes : Hashes := ⟨fun s => s.length, fun t => t.length, fun l => if .negZero ∈ l then 1 else 0⟩
example : exHashes.bytes [.num 0, .num 5] ≠ exHashes.bytes [.negZero, .num 5] := by decide +kernel
example : exHashes.str ("<CRS " ++ "a" ++ ">") ≠ exHashes.str ("<CRS " ++ "bc" ++ ">") := by decide +kernel
example : ∀ v ∈ exTriangle.verts, Fl.negZero ∉ v := by decide +kernel

/-- C119: items and slices. -/
example : (exLine.item 0 (-1)).map (fun p => p.verts) = .ok [[.num 3, .num 0]] := by decide +kernel
example : (exLine.item 0 4).map (fun p => p.verts) = .error .indexError := by decide +kernel
example : (exLine.slice 0 ⟨some 1, none, some 2⟩).map (fun p => p.verts) = .ok [[.num 1, .num 1], [.num 3, .num 0]] := by decide +kernel
example : (exTriangle.slice 0 ⟨none, none, some (-1)⟩).map (fun p => (p.kind, p.verts.length)) = .ok (.polygon, 3) := by decide +kernel
example : (exTriangle.slice 0 ⟨some 1, none, none⟩).map (fun p => (p.kind, p.verts.length)) = .ok (.line, 2) := by decide +kernel

/-- C120: two points of different systems. -/
example : let p : Geo String Nat := ⟨.point, [[.num 1, .num 2]], [], "", 0, exProj⟩
    let q : Geo String Nat := ⟨.point, [[.num 3, .num 4]], [], "", 0, exGeog⟩
    (multiFromPoints (fun _ _ v => (v.2, v.1)) 0 "" [p, q] none exProj).verts = [[.num 1, .num 2], [.num 4, .num 3]] ∧
      (fromPoints .line 0 "" [p, q] none exProj).verts = [[.num 1, .num 2], [.num 3, .num 4]] := by decide +kernel

/-- C121: the second of the vertices is the first with the smallest `x`. -/
example : exLine.nearestVertex 0 (fun p => .ok ((p.verts.headD []).headD (.num 0)).val) = .ok 1 := by decide +kernel

end Karta.Obj
