import Verif.Vec.ShapeFile
import Verif.Vec.ExchangeProps
import Verif.Vec.ShapeProps
import Verif.Geod.EllpsProps
import Mathlib.Algebra.Order.Floor.Ring
import Mathlib.Data.Rat.Floor

/-!
# Shapefiles, written and read back: C125, C126 and C127
-/

namespace Karta.ShpFile
open Karta Karta.Exch

/-! ### Specification -/

/-- The same position in the plane. -/
def SameXY (v w : Coord) : Prop := ∃ x y vs ws, v = x :: y :: vs ∧ w = x :: y :: ws

/-- Line by line the same positions. -/
def SameLine (r s : List Coord) : Prop := List.Forall₂ SameXY r s

/-- Rings with the same positions from the same first vertex, in either direction. -/
def SameLoop (r s : List Coord) : Prop := SameLine r s ∨ ∃ v vs, r = v :: vs ∧ SameLine (v :: vs.reverse) s

/-- The same shape in the plane; a multiline of one part is the same as that line. -/
def SameShape : Exch.Shape → Exch.Shape → Prop
  | .point v, .point w => SameXY v w
  | .line r, .line s => SameLine r s
  | .polygon r subs, .polygon s subs' => SameLoop r s ∧
      ∃ hs hs' : List (List Coord), subs = hs.map Sub.polygon ∧ subs' = hs'.map Sub.polygon ∧ List.Forall₂ SameLoop hs hs'
  | .multipoint r, .multipoint s => SameLine r s
  | .multiline rs, .multiline ss => List.Forall₂ SameLine rs ss
  | .multiline [r], .line s => SameLine r s
  | _, _ => False

/-- A vertex with a position in the plane. -/
def Vertex (v : Coord) : Prop := 2 ≤ v.length

/-- A ring that does not come back to its first vertex. -/
def Ring (r : List Coord) : Prop := r ≠ [] ∧ (∀ v ∈ r, Vertex v) ∧ ∀ v vs, r = v :: vs → ∀ w ∈ vs, ¬ SameXY v w

/-- Geometries that shapefiles can hold. -/
def Holds : Exch.Shape → Prop
  | .point v => Vertex v
  | .line r => r ≠ [] ∧ ∀ v ∈ r, Vertex v
  | .polygon r subs => Ring r ∧ ∃ hs : List (List Coord), subs = hs.map Sub.polygon ∧ ∀ h ∈ hs, Ring h
  | .multipoint r => r ≠ [] ∧ ∀ v ∈ r, Vertex v
  | .multiline rs => rs ≠ [] ∧ ∀ r ∈ rs, r ≠ [] ∧ ∀ v ∈ r, Vertex v
  | .multipolygon _ => False

/-- The type of a geometry. -/
def shapeKind : Exch.Shape → Kind
  | .point _ => .point
  | .line _ => .line
  | .polygon _ _ => .polygon
  | .multipoint _ => .multiPoint
  | .multiline _ => .multiLine
  | .multipolygon _ => .multiPolygon

/-- A closed ring in the same or the opposite direction. -/
def SameClosed (r s : List Coord) : Prop := SameLine r s ∨ SameLine r.reverse s

/-- What is assumed of the driver: layers accept geometries of their type and keep positions; rings may be turned round, a multiline of one
part may become a line; `GetPoint` gives two or three coordinates. -/
structure Faithful (dr : Driver) : Prop where
  point (d : Dim) (v : Coord) : dr.accepts .point (.point d v) = true ∧ ∃ d' w, dr.keep (.point d v) = some (.point d' w) ∧ (Vertex v → SameXY v w)
  line (d : Dim) (vs : List Coord) (h : vs ≠ []) (hv : ∀ v ∈ vs, Vertex v) :
    dr.accepts .line (.line d vs) = true ∧ ∃ d' ws, dr.keep (.line d vs) = some (.line d' ws) ∧ SameLine vs ws
  polygon (d : Dim) (rs : List (List Coord)) (h : rs ≠ []) (hr : ∀ r ∈ rs, r ≠ [] ∧ r.head? = r.getLast? ∧ ∀ v ∈ r, Vertex v) :
    dr.accepts .polygon (.polygon d rs) = true ∧ ∃ d' ss, dr.keep (.polygon d rs) = some (.polygon d' ss) ∧ List.Forall₂ SameClosed rs ss
  multiPoint (d : Dim) (vs : List Coord) (h : vs ≠ []) (hv : ∀ v ∈ vs, Vertex v) :
    dr.accepts .multiPoint (.multiPoint d vs) = true ∧ ∃ d' ws, dr.keep (.multiPoint d vs) = some (.multiPoint d' ws) ∧ SameLine vs ws
  multiLine (d : Dim) (rs : List (List Coord)) (h : rs ≠ []) (hr : ∀ r ∈ rs, r ≠ [] ∧ ∀ v ∈ r, Vertex v) :
    dr.accepts .multiLine (.multiLine d rs) = true ∧ ∃ d',
      (∃ ss, dr.keep (.multiLine d rs) = some (.multiLine d' ss) ∧ List.Forall₂ SameLine rs ss) ∨
      ∃ r s, rs = [r] ∧ dr.keep (.multiLine d rs) = some (.line d' s) ∧ SameLine r s
  get (v : Coord) (h : Vertex v) : SameXY v (dr.point v) ∧ ((dr.point v).length = 2 ∨ (dr.point v).length = 3)

/-! ### Positions -/

theorem SameXY.trans {u v w : Coord} (h1 : SameXY u v) (h2 : SameXY v w) : SameXY u w := by
  obtain ⟨x, y, us, vs, rfl, rfl⟩ := h1
  obtain ⟨x', y', vs', ws, h, rfl⟩ := h2
  simp only [List.cons.injEq] at h
  obtain ⟨rfl, rfl, rfl⟩ := h
  exact ⟨x, y, us, ws, rfl, rfl⟩

theorem SameXY.symm {u v : Coord} (h : SameXY u v) : SameXY v u := by
  obtain ⟨x, y, us, vs, rfl, rfl⟩ := h
  exact ⟨x, y, vs, us, rfl, rfl⟩

theorem SameXY.vertex {u v : Coord} (h : SameXY u v) : Vertex v := by
  obtain ⟨x, y, us, vs, rfl, rfl⟩ := h
  simp [Vertex]

theorem SameXY.take {u v : Coord} (h : SameXY u v) : u.take 2 = v.take 2 := by
  obtain ⟨x, y, us, vs, rfl, rfl⟩ := h
  rfl

theorem SameLine.trans {r s t : List Coord} (h1 : SameLine r s) (h2 : SameLine s t) : SameLine r t := by
  unfold SameLine at *
  induction h1 generalizing t with
  | nil => exact h2
  | cons a _ ih =>
    cases h2 with
    | cons b c => exact .cons (a.trans b) (ih c)

theorem SameLine.reverse {r s : List Coord} (h : SameLine r s) : SameLine r.reverse s.reverse := by
  unfold SameLine at *
  induction h with
  | nil => exact .nil
  | cons a _ ih =>
    rw [List.reverse_cons, List.reverse_cons]
    exact List.rel_append ih (.cons a .nil)

theorem SameLine.vertices {r s : List Coord} (h : SameLine r s) : ∀ v ∈ s, Vertex v := by
  unfold SameLine at h
  induction h with
  | nil => simp
  | cons a _ ih =>
    intro v hv
    rcases List.mem_cons.1 hv with rfl | hv
    · exact a.vertex
    · exact ih v hv

theorem SameLine.ne {r s : List Coord} (h : SameLine r s) (hr : r ≠ []) : s ≠ [] := by
  unfold SameLine at h
  cases h with
  | nil => exact absurd rfl hr
  | cons => simp

theorem SameLine.append_last {r s : List Coord} {v : Coord} (h : SameLine (r ++ [v]) s) : SameLine r s.dropLast := by
  unfold SameLine at *
  induction r generalizing s with
  | nil =>
    cases h with
    | cons _ h => cases h; exact .nil
  | cons a r ih =>
    cases h with
    | @cons _ b _ t p q =>
      have ht : t ≠ [] := by
        rintro rfl
        cases r <;> cases q
      obtain ⟨c, u, rfl⟩ := List.exists_cons_of_ne_nil ht
      rw [List.dropLast_cons₂]
      exact .cons p (ih q)

theorem xy_ok {v : Coord} (h : Vertex v) : ∃ w, xy v = .ok w ∧ SameXY v w := by
  match v, h with
  | x :: y :: vs, _ => exact ⟨[x, y, 0], rfl, x, y, vs, [0], rfl, rfl⟩

theorem each_ok {X Y : Type _} {f : X → Except Err Y} {R : X → Y → Prop} : ∀ {l : List X}, (∀ x ∈ l, ∃ y, f x = .ok y ∧ R x y) →
    ∃ l', each f l = .ok l' ∧ List.Forall₂ R l l' := by
  intro l
  induction l with
  | nil => intro _; exact ⟨[], rfl, .nil⟩
  | cons x l ih =>
    intro h
    obtain ⟨y, h1, h2⟩ := h x List.mem_cons_self
    obtain ⟨ys, h3, h4⟩ := ih fun x hx => h x (List.mem_cons_of_mem _ hx)
    refine ⟨y :: ys, ?_, .cons h2 h4⟩
    rw [each, h1]
    dsimp only
    rw [h3]

theorem line_ok {vs : List Coord} (h : ∀ v ∈ vs, Vertex v) : ∃ ws, each xy vs = .ok ws ∧ SameLine vs ws :=
  each_ok fun v hv => xy_ok (h v hv)

theorem lines_ok {rs : List (List Coord)} (h : ∀ r ∈ rs, ∀ v ∈ r, Vertex v) : ∃ ss, each (each xy) rs = .ok ss ∧ List.Forall₂ SameLine rs ss :=
  each_ok fun r hr => line_ok (h r hr)

theorem xy_congr {u v w : Coord} (h : xy u = .ok w) (h2 : SameXY u v) : xy v = .ok w := by
  obtain ⟨x, y, us, vs, rfl, rfl⟩ := h2
  exact h

/-- Writing the same first and last vertex gives the same first and last point. -/
theorem line_closed {v : Coord} {vs ws : List Coord} (h : each xy (v :: vs ++ [v]) = .ok ws) : ws.head? = ws.getLast? := by
  have key : ∀ (l : List Coord) (ws : List Coord), each xy (l ++ [v]) = .ok ws → ∃ w, xy v = .ok w ∧ ws.getLast? = some w := by
    intro l
    induction l with
    | nil =>
      intro ws h
      rw [List.nil_append, each] at h
      cases hx : xy v with
      | error e => rw [hx] at h; cases h
      | ok w => rw [hx] at h; cases h; exact ⟨w, rfl, rfl⟩
    | cons a l ih =>
      intro ws h
      rw [List.cons_append, each] at h
      cases ha : xy a with
      | error e => rw [ha] at h; cases h
      | ok b =>
        rw [ha] at h
        dsimp only at h
        cases hl : each xy (l ++ [v]) with
        | error e => rw [hl] at h; cases h
        | ok t =>
          rw [hl] at h
          cases h
          obtain ⟨w, h1, h2⟩ := ih t hl
          refine ⟨w, h1, ?_⟩
          rw [List.getLast?_cons, h2]; rfl
  obtain ⟨w, h1, h2⟩ := key (v :: vs) ws h
  rw [h2]
  rw [List.cons_append, each, h1] at h
  dsimp only at h
  cases hl : each xy (vs ++ [v]) with
  | error e => rw [hl] at h; cases h
  | ok t => rw [hl] at h; cases h; rfl

/-! ### Rings -/

theorem dropLast_closed (v : Coord) (vs : List Coord) : (v :: vs ++ [v]).dropLast = v :: vs := List.dropLast_concat

/-- The ring that comes back. -/
theorem loop_back {r s t : List Coord} (hr : r ≠ []) (h1 : SameLine (r ++ r.head?.toList) s) (h2 : SameClosed s t) : SameLoop r t.dropLast := by
  obtain ⟨v, vs, rfl⟩ := List.exists_cons_of_ne_nil hr
  have h1' : SameLine (v :: vs ++ [v]) s := h1
  rcases h2 with h2 | h2
  · exact Or.inl (h1'.trans h2).append_last
  · refine Or.inr ⟨v, vs, rfl, ?_⟩
    have h3 := h1'.reverse.trans h2
    have e : (v :: vs ++ [v]).reverse = v :: vs.reverse ++ [v] := by simp
    rw [e] at h3
    exact h3.append_last

theorem SameLine.head_take {r s : List Coord} (h : SameLine r s) : r.head?.map (·.take 2) = s.head?.map (·.take 2) := by
  unfold SameLine at h
  cases h with
  | nil => rfl
  | cons a _ => simp [a.take]

theorem SameLine.last_take {r s : List Coord} (h : SameLine r s) : r.getLast?.map (·.take 2) = s.getLast?.map (·.take 2) := by
  have := h.reverse.head_take
  simpa [List.head?_reverse] using this

theorem SameLine.length {r s : List Coord} (h : SameLine r s) : r.length = s.length := List.Forall₂.length_eq h

theorem SameLine.mem_right {r s : List Coord} (h : SameLine r s) {w : Coord} (hw : w ∈ s) : ∃ v ∈ r, SameXY v w := by
  unfold SameLine at h
  induction h with
  | nil => cases hw
  | cons a _ ih =>
    rcases List.mem_cons.1 hw with rfl | hw
    · exact ⟨_, List.mem_cons_self, a⟩
    · obtain ⟨v, h1, h2⟩ := ih hw
      exact ⟨v, List.mem_cons_of_mem _ h1, h2⟩

/-- A ring that does not come back to its first vertex stays as it is. -/
theorem ringString_open {r s : List Coord} (drop : Bool) (hr : Ring r) (h : SameLoop r s) : ringString drop s = s := by
  have key : ∀ v vs, SameLine (v :: vs) s → (∀ w ∈ vs, ¬ SameXY v w) → ringString drop s = s := by
    intro v vs h hn
    unfold SameLine at h
    cases h with
    | @cons _ w _ ws h1 h2 =>
      unfold ringString
      rw [if_neg]
      intro hc
      simp only [Bool.and_eq_true, decide_eq_true_eq, List.length_cons] at hc
      obtain ⟨-, hlen, hlast⟩ := hc
      cases ws with
      | nil => simp at hlen
      | cons a ws =>
        rw [List.head?_cons, List.getLast?_cons_cons] at hlast
        have hm : w ∈ a :: ws := List.mem_of_getLast? hlast.symm
        obtain ⟨u, hu, huw⟩ := SameLine.mem_right h2 hm
        exact hn u hu (h1.trans huw.symm)
  obtain ⟨-, -, hn⟩ := hr
  rcases h with h | ⟨v, vs, rfl, h⟩
  · cases r with
    | nil =>
      unfold SameLine at h
      cases h
      unfold ringString
      simp
    | cons v vs => exact key v vs h (hn v vs rfl)
  · exact key v vs.reverse h fun w hw => hn v vs rfl w (List.mem_reverse.1 hw)

/-! ### One geometry -/

theorem forall2_map_left {X Y Z : Type _} {R : Y → Z → Prop} (f : X → Y) {l : List X} {m : List Z} (h : List.Forall₂ R (l.map f) m) :
    List.Forall₂ (fun x z => R (f x) z) l m := by
  induction l generalizing m with
  | nil => cases h; exact .nil
  | cons x l ih =>
    cases h with
    | cons a b => exact .cons a (ih b)

theorem closeRing_closed {r : List Coord} (h : r.head? = r.getLast?) : closeRing r = r := if_pos h

theorem lines_trans {rs ss ts : List (List Coord)} (h1 : List.Forall₂ SameLine rs ss) (h2 : List.Forall₂ SameLine ss ts) :
    List.Forall₂ SameLine rs ts := by
  induction h1 generalizing ts with
  | nil => exact h2
  | cons a _ ih =>
    cases h2 with
    | cons b c => exact .cons (a.trans b) (ih c)

theorem rings_back {l ws ss : List (List Coord)} (drop : Bool) (hall : ∀ q ∈ l, Ring q)
    (hw : List.Forall₂ (fun x z => SameLine (x ++ x.head?.toList) z ∧ z.head? = z.getLast?) l ws) (h3 : List.Forall₂ SameClosed ws ss) :
    List.Forall₂ (fun q t => SameLoop q t ∧ ringString drop t = t) l (ss.map List.dropLast) := by
  induction hw generalizing ss with
  | nil => cases h3; exact .nil
  | @cons q w l ws a _ ih =>
    cases h3 with
    | @cons _ t _ ts b c =>
      have hl := loop_back (hall q List.mem_cons_self).1 a.1 b
      exact .cons ⟨hl, ringString_open drop (hall q List.mem_cons_self) hl⟩ (ih (fun q hq => hall q (List.mem_cons_of_mem _ hq)) c)

theorem holes_back {l ts : List (List Coord)} (drop : Bool) (h : List.Forall₂ (fun q t => SameLoop q t ∧ ringString drop t = t) l ts) :
    (ts.map fun r => Sub.polygon (ringString drop r)) = ts.map Sub.polygon := by
  induction h with
  | nil => rfl
  | cons a _ ih => rw [List.map_cons, List.map_cons, a.2, ih]

/-- A geometry that shapefiles hold, written to a layer of its type and read. -/
theorem one_trip {F A C : Type} (dr : Driver) (hd : Faithful dr) (drop : Bool) (crs : C) (props : List (F × Val A)) (s : Exch.Shape) (hs : Holds s) :
    ∃ gj g o, geomdict s = .ok gj ∧ kind gj = shapeKind s ∧ asOgr gj = .ok g ∧ dr.accepts (shapeKind s) g = true ∧ dr.keep g = some o ∧
      ∃ gj' x, readGeometry dr.point o = .ok gj' ∧ fromShape drop crs gj' props = .ok x ∧ SameShape s x.shape ∧ x.props = props ∧ x.crs = crs := by
  cases s with
  | point v =>
    obtain ⟨w, hw, hvw⟩ := xy_ok hs
    obtain ⟨h1, d', u, h2, h3⟩ := hd.point .d25 w
    have h4 := h3 hvw.vertex
    obtain ⟨h5, h6⟩ := hd.get u h4.vertex
    refine ⟨_, .point .d25 w, _, rfl, rfl, by rw [asOgr, hw]; rfl, h1, h2, .point (dr.point u), ⟨.point (dr.point u), props, ⟨[], []⟩, crs⟩, rfl, ?_, ?_, rfl, rfl⟩
    · exact if_pos h6
    · exact hvw.trans (h4.trans h5)
  | line vs =>
    obtain ⟨ws, hw, hvw⟩ := line_ok hs.2
    obtain ⟨h1, d', us, h2, h3⟩ := hd.line .d25 ws (hvw.ne hs.1) hvw.vertices
    exact ⟨_, .line .d25 ws, _, rfl, rfl, by rw [asOgr, hw]; rfl, h1, h2, _, ⟨.line us, props, ⟨[], []⟩, crs⟩, rfl, rfl, hvw.trans h3, rfl, rfl⟩
  | multipoint vs =>
    obtain ⟨ws, hw, hvw⟩ := line_ok hs.2
    obtain ⟨h1, d', us, h2, h3⟩ := hd.multiPoint .d25 ws (hvw.ne hs.1) hvw.vertices
    exact ⟨_, .multiPoint .d25 ws, _, rfl, rfl, by rw [asOgr, hw]; rfl, h1, h2, _, ⟨.multipoint us, props, _, crs⟩, rfl, rfl, hvw.trans h3, rfl, rfl⟩
  | multiline rs =>
    obtain ⟨ws, hw, hvw⟩ := lines_ok fun r hr => (hs.2 r hr).2
    have hne : ws ≠ [] := by
      rintro rfl
      exact hs.1 (List.forall₂_nil_right_iff.1 hvw)
    have hall : ∀ r ∈ ws, r ≠ [] ∧ ∀ v ∈ r, Vertex v := by
      have hs2 := hs.2
      clear hw hne hs
      induction hvw with
      | nil => simp
      | cons a _ ih =>
        intro r hr
        rcases List.mem_cons.1 hr with rfl | hr
        · exact ⟨a.ne (hs2 _ List.mem_cons_self).1, a.vertices⟩
        · exact ih (fun r hr => hs2 r (List.mem_cons_of_mem _ hr)) r hr
    have hg : geomdict (.multiline rs) = .ok (.multiLineString rs) := by
      rw [geomdict, nested_ok fun h => (hs.2 [] h).1 rfl]
    obtain ⟨h1, d', ⟨ss, h2, h3⟩ | ⟨r, t, h4, h2, h3⟩⟩ := hd.multiLine .d25 ws hne hall
    · refine ⟨.multiLineString rs, .multiLine .d25 ws, _, hg, rfl, by rw [asOgr, hw]; rfl, h1, h2, _, ⟨.multiline ss, props, _, crs⟩, rfl, rfl, ?_, rfl, rfl⟩
      exact lines_trans hvw h3
    · refine ⟨.multiLineString rs, .multiLine .d25 ws, _, hg, rfl, by rw [asOgr, hw]; rfl, h1, h2, _, ⟨.line t, props, ⟨[], []⟩, crs⟩, rfl, rfl, ?_, rfl, rfl⟩
      rw [h4] at hvw
      cases hvw with
      | cons a b => cases b; exact a.trans h3
  | multipolygon _ => exact absurd hs id
  | polygon r subs =>
    obtain ⟨hr, hs0, rfl, hh⟩ := hs
    obtain ⟨v, vs, hrv, hc⟩ := closed_ok hr.1
    have hg : geomdict (.polygon r (hs0.map Sub.polygon)) = .ok (.polygon ((r :: hs0).map fun r => r ++ r.head?.toList)) := by
      rw [geomdict, hc]
      dsimp only
      rw [subRings_polygons hs0 fun h hm => (hh h hm).1]
      dsimp only
      rw [List.map_cons, hrv]
      rfl
    have hall : ∀ q ∈ r :: hs0, Ring q := by
      intro q hq
      rcases List.mem_cons.1 hq with rfl | hq
      · exact hr
      · exact hh q hq
    -- writing
    have hw : ∃ ws, each (each xy) ((r :: hs0).map fun r => r ++ r.head?.toList) = .ok ws ∧
        List.Forall₂ (fun q w => SameLine q w ∧ w.head? = w.getLast?) ((r :: hs0).map fun r => r ++ r.head?.toList) ws := by
      apply each_ok
      intro q hq
      obtain ⟨q0, hq0, rfl⟩ := List.mem_map.1 hq
      obtain ⟨hne, hver, -⟩ := hall q0 hq0
      obtain ⟨a, as, rfl⟩ := List.exists_cons_of_ne_nil hne
      have hver' : ∀ x ∈ a :: as ++ [a], Vertex x := by
        intro x hx
        rcases List.mem_append.1 hx with hx | hx
        · exact hver x hx
        · rw [List.mem_singleton.1 hx]; exact hver a List.mem_cons_self
      obtain ⟨w, h1, h2⟩ := line_ok hver'
      exact ⟨w, h1, h2, line_closed h1⟩
    obtain ⟨ws, hw1, hw2⟩ := hw
    have hw3 := forall2_map_left _ hw2
    have hclose : ws.map closeRing = ws := by
      clear hw1 hw3
      generalize ((r :: hs0).map fun r => r ++ r.head?.toList) = l at hw2
      induction hw2 with
      | nil => rfl
      | cons a _ ih => rw [List.map_cons, closeRing_closed a.2, ih]
    have hwne : ws ≠ [] := by
      rintro rfl
      cases hw3
    have hwall : ∀ w ∈ ws, w ≠ [] ∧ w.head? = w.getLast? ∧ ∀ v ∈ w, Vertex v := by
      clear hw1 hw2 hclose hwne hg hh hr hrv hc
      generalize r :: hs0 = l at hw3 hall
      induction hw3 with
      | nil => simp
      | @cons q w l ws a _ ih =>
        intro x hx
        rcases List.mem_cons.1 hx with rfl | hx
        · refine ⟨a.1.ne ?_, a.2, a.1.vertices⟩
          have := (hall q List.mem_cons_self).1
          intro e
          exact this (List.append_eq_nil_iff.1 e).1
        · exact ih (fun q hq => hall q (List.mem_cons_of_mem _ hq)) x hx
    obtain ⟨h1, d', ss, h2, h3⟩ := hd.polygon .d25 ws hwne hwall
    -- reading
    have hback := rings_back drop hall hw3 h3
    generalize hT : ss.map List.dropLast = T at hback
    cases hback with
    | @cons _ t _ ts hb hbs =>
      refine ⟨_, .polygon .d25 ws, _, hg, rfl, by rw [asOgr, hw1]; dsimp only [Except.map]; rw [hclose], h1, h2, .polygon (t :: ts),
        ⟨.polygon t (ts.map Sub.polygon), props, ⟨[], []⟩, crs⟩, by rw [readGeometry, polygonPoints, hT], ?_, ?_, rfl, rfl⟩
      · rw [fromShape, hb.2]
        rw [holes_back drop hbs]
      · refine ⟨hb.1, hs0, ts, rfl, rfl, ?_⟩
        exact hbs.imp fun _ _ h => h.1

/-! ### C125 -/

variable {F A C : Type}

/-- C125 in part: geometries of one type that are written to a shapefile come back in order, each with its attributes and its shape in the
plane.  Missing: third coordinates (`C125_violated_height`), multipolygons (`C125_violated_multipolygon`) and lists of several types
(`C125_violated_mixed`). -/
theorem C125_order_partial {R : Type _} (dr : Driver) (hd : Faithful dr) (drop : Bool) (crs : C) (attr : R → List (F × Val A))
    (gs : List (Exch.Shape × R)) (hne : gs ≠ []) (hs : ∀ g ∈ gs, Holds g.1) (k : Kind) (hk : ∀ g ∈ gs, shapeKind g.1 = k) :
    ∃ xs, trip dr drop crs attr gs = .ok xs ∧
      List.Forall₂ (fun g x => SameShape g.1 x.shape ∧ x.props = attr g.2 ∧ x.crs = crs) gs xs := by
  have key : ∀ gs : List (Exch.Shape × R), (∀ g ∈ gs, Holds g.1) → (∀ g ∈ gs, shapeKind g.1 = k) →
      ∃ objs l xs, each (fun g : Exch.Shape × R => (geomdict g.1).map fun gj => (gj, g.2)) gs = .ok objs ∧ (∀ o ∈ objs, kind o.1 = k) ∧
        objs.length = gs.length ∧ writeAll dr k objs = .ok l ∧ readLayer dr drop crs attr l = .ok xs ∧
        List.Forall₂ (fun g x => SameShape g.1 x.shape ∧ x.props = attr g.2 ∧ x.crs = crs) gs xs := by
    intro gs
    induction gs with
    | nil => intro _ _; exact ⟨[], [], [], rfl, by simp, rfl, rfl, rfl, .nil⟩
    | cons g gs ih =>
      intro hs hk
      obtain ⟨objs, l, xs, e1, e2, e3, e4, e5, e6⟩ := ih (fun g hg => hs g (List.mem_cons_of_mem _ hg)) fun g hg => hk g (List.mem_cons_of_mem _ hg)
      obtain ⟨s, r⟩ := g
      obtain ⟨gj, g, o, f1, f2, f3, f4, f5, gj', x, f6, f7, f8⟩ := one_trip (F := F) (A := A) dr hd drop crs (attr r) s (hs _ List.mem_cons_self)
      have hks : shapeKind s = k := hk _ List.mem_cons_self
      refine ⟨(gj, r) :: objs, (some o, r) :: l, x :: xs, ?_, ?_, by simp [e3], ?_, ?_, .cons f8 e6⟩
      · rw [each]
        dsimp only
        rw [f1]
        dsimp only [Except.map]
        have e1' := e1
        dsimp only [Except.map] at e1'
        rw [e1']
      · intro o ho
        rcases List.mem_cons.1 ho with rfl | ho
        · exact f2.trans hks
        · exact e2 o ho
      · rw [writeAll, f3]
        dsimp only
        rw [e4]
        dsimp only
        rw [← hks, if_pos f4, f5]
      · rw [readLayer, f6]
        dsimp only
        rw [f7]
        dsimp only
        rw [e5]
  obtain ⟨objs, l, xs, e1, e2, e3, e4, e5, e6⟩ := key gs hs hk
  refine ⟨xs, ?_, e6⟩
  unfold trip
  rw [e1]
  dsimp only
  cases objs with
  | nil => exact absurd (List.length_eq_zero_iff.1 e3.symm) hne
  | cons o objs =>
    obtain ⟨gj, r⟩ := o
    rw [writeLayer, e2 (gj, r) List.mem_cons_self, e4]
    exact e5

/-- C125, reading: features without a geometry are skipped wherever they are; all others are read, each on its own and in order. -/
theorem C125_null_skipped {R : Type _} (dr : Driver) (drop : Bool) (crs : C) (attr : R → List (F × Val A)) (l : List (Option OGeom × R))
    (xs : List (Geom F A C)) : readLayer dr drop crs attr l = .ok xs ↔
      List.Forall₂ (fun g x => readLayer dr drop crs attr [g] = .ok [x]) (l.filter fun g => g.1.isSome) xs := by
  induction l generalizing xs with
  | nil =>
    simp only [readLayer, List.filter_nil, List.forall₂_nil_left_iff]
    constructor
    · intro h; injection h with h; exact h.symm
    · rintro rfl; rfl
  | cons g l ih =>
    obtain ⟨g, r⟩ := g
    cases g with
    | none => rw [readLayer, List.filter_cons, if_neg (by simp)]; exact ih xs
    | some g =>
      rw [readLayer, List.filter_cons, if_pos (by simp)]
      cases h1 : readGeometry dr.point g with
      | error e =>
        dsimp only
        refine ⟨(fun h => by cases h), (fun h => ?_)⟩
        rcases h with _ | ⟨h, -⟩
        rw [readLayer, h1] at h
        cases h
      | ok gj =>
        dsimp only
        cases h2 : fromShape drop crs gj (attr r) with
        | error e =>
          dsimp only
          refine ⟨(fun h => by cases h), (fun h => ?_)⟩
          rcases h with _ | ⟨h, -⟩
          rw [readLayer, h1] at h
          dsimp only at h
          rw [h2] at h
          cases h
        | ok x =>
          dsimp only
          have hx : readLayer dr drop crs attr [(some g, r)] = .ok [x] := by
            rw [readLayer, h1]; dsimp only; rw [h2]; rfl
          constructor
          · intro h
            cases h3 : readLayer dr drop crs attr l with
            | error e => rw [h3] at h; cases h
            | ok ys =>
              rw [h3] at h
              injection h with h
              subst h
              exact .cons hx ((ih ys).1 h3)
          · intro h
            rcases h with _ | ⟨h, ht⟩
            rw [hx] at h
            injection h with h
            injection h with h
            subst h
            rw [(ih _).2 ht]

/-- C125 is false for heights: points that differ in the third coordinate only are written as one and the same. -/
theorem C125_violated_height (x y z z' : ℚ) : asOgr (.point [x, y, z]) = asOgr (.point [x, y, z']) ∧
    asOgr (.lineString [[x, y, z]]) = asOgr (.lineString [[x, y, z']]) := ⟨rfl, rfl⟩

/-- C125 is false for multipolygons: a shapefile written from them has no geometry at all, so nothing comes back. -/
theorem C125_violated_multipolygon {R : Type _} (dr : Driver) (hempty : dr.keep (.multiLine .flat []) = none) (drop : Bool) (crs : C)
    (attr : R → List (F × Val A)) (ps : List (List (List Coord))) (hp : [] ∉ ps) (hv : ∀ p ∈ ps, ∀ r ∈ p, r ≠ [] ∧ ∀ v ∈ r, Vertex v)
    (r : R) :
    trip dr drop crs attr [(.multipolygon ps, r)] = .ok [] := by
  have h1 : geomdict (.multipolygon ps) = .ok (.multiPolygon (ps.map fun p => p.map fun r => r ++ r.head?.toList)) := by
    rw [geomdict, closedPolys_ok ps fun p hp r hr => (hv p hp r hr).1]
    dsimp only
    rw [nested_ok (not_nil_mem_map _ hp)]
  have h2 : ∃ qs, each (each (each xy)) (ps.map fun p => p.map fun r => r ++ r.head?.toList) = .ok qs ∧
      List.Forall₂ (List.Forall₂ SameLine) (ps.map fun p => p.map fun r => r ++ r.head?.toList) qs := by
    apply each_ok
    intro q hq
    obtain ⟨p, hp, rfl⟩ := List.mem_map.1 hq
    apply lines_ok
    intro s hs
    obtain ⟨t, ht, rfl⟩ := List.mem_map.1 hs
    intro v hv'
    rcases List.mem_append.1 hv' with h | h
    · exact (hv p hp t ht).2 v h
    · cases t with
      | nil => simp at h
      | cons a t =>
        have : v = a := by simpa using h
        rw [this]
        exact (hv p hp _ ht).2 a List.mem_cons_self
  obtain ⟨qs, h2, -⟩ := h2
  unfold trip
  rw [each, each]
  dsimp only
  rw [h1]
  dsimp only [Except.map]
  rw [writeLayer, writeAll, asOgr, h2]
  dsimp only [Except.map]
  rw [writeAll]
  dsimp only
  by_cases ha : dr.accepts (kind (.multiPolygon (ps.map fun p => p.map fun r => r ++ r.head?.toList))) (.multiLine .flat []) = true
  · rw [if_pos ha, hempty]; rfl
  · rw [if_neg ha]; rfl

/-- C125 is false for lists of several types: what the layer of the first geometry does not accept is lost without notice. -/
theorem C125_violated_mixed {R : Type _} (dr : Driver) (hd : Faithful dr) (hrefuse : ∀ v, dr.accepts .line (.point .d25 v) = false) (drop : Bool)
    (crs : C) (attr : R → List (F × Val A)) (vs : List Coord) (hvs : vs ≠ []) (hv : ∀ v ∈ vs, Vertex v) (w : Coord) (hw : Vertex w) (r r' : R) :
    ∃ x, trip dr drop crs attr [(.line vs, r), (.point w, r')] = .ok [x] ∧ SameShape (.line vs) x.shape := by
  obtain ⟨gj, g, o, f1, f2, f3, f4, f5, gj', x, f6, f7, f8, f9⟩ := one_trip (F := F) (A := A) dr hd drop crs (attr r) (.line vs) ⟨hvs, hv⟩
  obtain ⟨u, hu, -⟩ := xy_ok hw
  refine ⟨x, ?_, f8⟩
  cases f1
  unfold trip
  have e : each (fun g : Exch.Shape × R => (geomdict g.1).map fun gj => (gj, g.2)) [(.line vs, r), (.point w, r')] =
      .ok [(.lineString vs, r), (.point w, r')] := rfl
  rw [e]
  dsimp only
  rw [writeLayer, writeAll, f3]
  dsimp only
  rw [writeAll, asOgr, hu]
  dsimp only [Except.map]
  rw [writeAll]
  dsimp only
  have e2 : dr.accepts (kind (.lineString vs)) (.point .d25 u) = false := hrefuse u
  have e3 : dr.accepts (kind (.lineString vs)) g = true := f4
  rw [if_pos e3, if_neg (by rw [e2]; simp), f5]
  rw [readLayer, f6]
  dsimp only
  rw [f7]
  rfl

/-- C125 is false for empty lists: `IndexError`. -/
theorem C125_empty_refused {R : Type _} (dr : Driver) (drop : Bool) (crs : C) (attr : R → List (F × Val A)) :
    trip dr drop crs attr [] = .error .indexError := rfl

/-! ### C126 -/

/-- The same value; integers may come back as floats. -/
def SameValue (v w : Value) : Prop := w = v ∨ ∃ n : Int, v = .int n ∧ w = .real n

/-- What is assumed of the table of attributes: numbers and text are supported and kept; text fields stay text fields, integer fields may be
reopened as floats. -/
structure Dbf.Faithful (db : Dbf) : Prop where
  supports : db.supports .integer = true ∧ db.supports .real = true ∧ db.supports .string = true
  integer : (db.reopened .integer = .integer ∨ db.reopened .integer = .real) ∧ ∀ n, SameValue (.int n) (db.field .integer (.int n))
  real : db.reopened .real = .real ∧ ∀ x, db.field .real (.real x) = .real x
  string : db.reopened .string = .string ∧ ∀ s, db.field .string (.text s) = .text s
  empty (t : FType) : db.field t .none = .none

/-- Values of the type of the field, and no value in fields of numbers. -/
def Fits : FType → Value → Prop
  | .integer, .int _ => True
  | .real, .real _ => True
  | .string, .text _ => True
  | .integer, .none => True
  | .real, .none => True
  | _, _ => False

theorem row_ok (cols : List (Shape.Column FType)) (hd : cols.Pairwise fun c c' => c.name ≠ c'.name) (i : Nat) (p : Shape.Props Value)
    (hval : ∀ c ∈ cols, ∃ v, p.get c.key = .ok v) :
    ∃ vs, Shape.row cols i p = .ok (i, vs) ∧ List.Forall₂ (fun c x => x.1 = c.name ∧ p.get c.key = .ok x.2) cols vs := by
  have hnd : (cols.map (·.name)).Nodup := by rw [List.Nodup, List.pairwise_map]; exact hd
  have hfind : ∀ c ∈ cols, (cols.reverse.find? (fun c' => c'.name = c.name)).map (·.key) = some c.key := by
    intro c hc
    cases hf : cols.reverse.find? (fun c' => c'.name = c.name) with
    | none =>
      rw [List.find?_eq_none] at hf
      exact absurd (decide_eq_true rfl) (hf c (List.mem_reverse.mpr hc))
    | some c' =>
      have hm : c' ∈ cols := List.mem_reverse.mp (List.mem_of_find?_eq_some hf)
      have hn : c'.name = c.name := by simpa using List.find?_some hf
      rw [List.inj_on_of_nodup_map hnd hm hc hn]; rfl
  have hrow : ∀ (l : List (Shape.Column FType)), (∀ c ∈ l, c ∈ cols) →
      ∃ vs, l.mapM (fun c => (p.get (((cols.reverse.find? (fun c' => c'.name = c.name)).map (·.key)).getD c.name)).map
        (fun v => (c.name, v))) = .ok vs ∧ List.Forall₂ (fun c x => x.1 = c.name ∧ p.get c.key = .ok x.2) l vs := by
    intro l hl
    induction l with
    | nil => exact ⟨[], rfl, .nil⟩
    | cons c l ih =>
      obtain ⟨vs, e1, e2⟩ := ih (fun c' hc' => hl c' (List.mem_cons_of_mem _ hc'))
      obtain ⟨v, hv⟩ := hval c (hl c List.mem_cons_self)
      refine ⟨(c.name, v) :: vs, ?_, .cons ⟨rfl, hv⟩ e2⟩
      rw [List.mapM_cons, e1, hfind c (hl c List.mem_cons_self)]
      simp only [Option.getD_some, hv]
      rfl
  obtain ⟨vs, e1, e2⟩ := hrow cols fun _ h => h
  exact ⟨vs, by unfold Shape.row; rw [e1], e2⟩

section
variable (db : Dbf) (trunc : ℚ → Int) (show' : Value → List Char) (readInt : List Char → Except Err Int) (readReal : List Char → Except Err ℚ)

theorem readField_ok (hdb : db.Faithful) (htr : ∀ n : Int, trunc n = n) (t : FType) (v : Value) (hf : Fits t v) :
    ∃ w, readField trunc show' readInt readReal (db.reopened t) (db.field t v) = .ok w ∧ SameValue v w := by
  cases t <;> cases v <;> try exact absurd hf id
  · rename_i n
    obtain ⟨h1, h2⟩ := hdb.integer
    rcases h2 n with e | ⟨m, e1, e2⟩
    · rw [e]
      rcases h1 with h1 | h1
      · rw [h1]; exact ⟨_, rfl, Or.inl rfl⟩
      · rw [h1]; exact ⟨_, rfl, Or.inr ⟨n, rfl, rfl⟩⟩
    · cases e1
      rw [e2]
      rcases h1 with h1 | h1
      · rw [h1]; exact ⟨_, rfl, Or.inl (by rw [htr])⟩
      · rw [h1]; exact ⟨_, rfl, Or.inr ⟨n, rfl, rfl⟩⟩
  · rw [hdb.empty]
    rcases hdb.integer.1 with h1 | h1 <;> rw [h1] <;> exact ⟨_, rfl, Or.inl rfl⟩
  · rw [hdb.real.1, hdb.real.2]; exact ⟨_, rfl, Or.inl rfl⟩
  · rw [hdb.empty, hdb.real.1]; exact ⟨_, rfl, Or.inl rfl⟩
  · rw [hdb.string.1, hdb.string.2]; exact ⟨_, rfl, Or.inl rfl⟩

/-- C126 in part: every feature comes back with its number as `id` and, under the name of the column, with its own value of every attribute,
where the values are numbers or text of the type of the column.  Missing: dates and times (`C126_violated_dates`), missing values in columns of
text (`C126_violated_none`) and columns of several types. -/
theorem C126_attributes_partial (hdb : db.Faithful) (htr : ∀ n : Int, trunc n = n) {up : Char → List Char} {objs : List (Shape.Props Value)}
    {fuel : Nat} {ks : List Shape.Name} {cols : List (Shape.Column FType)} (hk : Shape.IsKeyOrder objs ks)
    (h : Shape.columns up fieldType objs fuel [] ks = some (.ok cols)) {p : Shape.Props Value} (hp : p ∈ objs) (i : Nat)
    (hfit : ∀ c ∈ cols, ∀ v, p.get c.key = .ok v → Fits c.typ v) :
    ∃ attrs, attributes db trunc show' readInt readReal cols i p = .ok attrs ∧ ("id".toList, Value.int i) ∈ attrs ∧
      ∀ c ∈ cols, c.name ≠ "id".toList → ∃ v w, p.get c.key = .ok v ∧ SameValue v w ∧ ∀ w', (c.name, w') ∈ attrs ↔ w' = w := by
  have hd := Shape.C54_distinct h
  have hval : ∀ c ∈ cols, ∃ v, p.get c.key = .ok v := by
    obtain ⟨vs, -, -, h3⟩ := Shape.C82_rows_partial hk h hp i
    intro c hc
    obtain ⟨v, hv, -⟩ := h3 c hc
    exact ⟨v, hv⟩
  have hsup : ∀ c ∈ cols, db.supports c.typ = true := by
    intro c hc
    obtain ⟨v, hv⟩ := hval c hc
    have hf := hfit c hc v hv
    have hs := hdb.supports
    cases ht : c.typ
    · exact hs.1
    · exact hs.2.1
    · exact hs.2.2
    all_goals (rw [ht] at hf; exact absurd hf id)
  have hfilter : (cols.filter fun c => db.supports c.typ) = cols := List.filter_eq_self.2 hsup
  obtain ⟨vs, hrow, hvs⟩ := row_ok cols hd i p hval
  have heach : ∃ l, each (fun cv : Shape.Column FType × (Shape.Name × Value) =>
        (readField trunc show' readInt readReal (db.reopened cv.1.typ) (db.field cv.1.typ cv.2.2)).map fun v => (cv.2.1, v)) (cols.zip vs) = .ok l ∧
      List.Forall₂ (fun c x => x.1 = c.name ∧ ∃ v, p.get c.key = .ok v ∧ SameValue v x.2) cols l := by
    have : ∀ cs : List (Shape.Column FType), (∀ c ∈ cs, c ∈ cols) → ∀ vs,
        List.Forall₂ (fun c x => x.1 = c.name ∧ p.get c.key = .ok x.2) cs vs →
        ∃ l, each (fun cv : Shape.Column FType × (Shape.Name × Value) =>
          (readField trunc show' readInt readReal (db.reopened cv.1.typ) (db.field cv.1.typ cv.2.2)).map fun v => (cv.2.1, v)) (cs.zip vs) = .ok l ∧
          List.Forall₂ (fun c x => x.1 = c.name ∧ ∃ v, p.get c.key = .ok v ∧ SameValue v x.2) cs l := by
      intro cs hcs vs hvs
      induction hvs with
      | nil => exact ⟨[], rfl, .nil⟩
      | @cons c x cs vs a _ ih =>
        obtain ⟨l, e1, e2⟩ := ih fun c hc => hcs c (List.mem_cons_of_mem _ hc)
        obtain ⟨w, e3, e4⟩ := readField_ok db trunc show' readInt readReal hdb htr c.typ x.2 (hfit c (hcs c List.mem_cons_self) _ a.2)
        refine ⟨(x.1, w) :: l, ?_, .cons ⟨a.1, x.2, a.2, e4⟩ e2⟩
        rw [List.zip_cons_cons, each]
        dsimp only
        rw [e3]
        dsimp only [Except.map]
        have e1' := e1
        dsimp only [Except.map] at e1'
        rw [e1']
    exact this cols (fun _ h => h) vs hvs
  obtain ⟨l, e1, e2⟩ := heach
  refine ⟨("id".toList, .int i) :: l, ?_, List.mem_cons_self, ?_⟩
  · unfold attributes
    rw [hfilter, hrow]
    dsimp only
    rw [e1]
  · intro c hc hne
    have hmem : ∀ cs : List (Shape.Column FType), ∀ l,
        List.Forall₂ (fun c x => x.1 = c.name ∧ ∃ v, p.get c.key = .ok v ∧ SameValue v x.2) cs l → cs.Pairwise (fun c c' => c.name ≠ c'.name) →
        c ∈ cs → ∃ v w, p.get c.key = .ok v ∧ SameValue v w ∧ ∀ w', (c.name, w') ∈ l ↔ w' = w := by
      intro cs l hl
      induction hl with
      | nil => intro _ h; cases h
      | @cons c0 x cs l a hrest ih =>
        intro hpw hc
        obtain ⟨hp1, hp2⟩ := List.pairwise_cons.1 hpw
        obtain ⟨a1, v, a2, a3⟩ := a
        have hnames : ∀ y ∈ l, ∃ c' ∈ cs, y.1 = c'.name := by
          clear ih hp1 hp2 hpw hc
          induction hrest with
          | nil => simp
          | cons b _ ih =>
            intro y hy
            rcases List.mem_cons.1 hy with rfl | hy
            · exact ⟨_, List.mem_cons_self, b.1⟩
            · obtain ⟨c', h1, h2⟩ := ih y hy
              exact ⟨c', List.mem_cons_of_mem _ h1, h2⟩
        rcases List.mem_cons.1 hc with rfl | hc
        · refine ⟨v, x.2, a2, a3, fun w' => ⟨fun hw => ?_, fun hw => ?_⟩⟩
          · rcases List.mem_cons.1 hw with e | hw
            · rw [← e]
            · obtain ⟨c', h1, h2⟩ := hnames _ hw
              exact absurd h2 (hp1 c' h1)
          · rw [hw, ← a1]; exact List.mem_cons_self
        · obtain ⟨v', w, b1, b2, b3⟩ := ih hp2 hc
          refine ⟨v', w, b1, b2, fun w' => ?_⟩
          rw [← b3 w']
          refine ⟨fun hw => ?_, fun hw => List.mem_cons_of_mem _ hw⟩
          rcases List.mem_cons.1 hw with e | hw
          · exact absurd (by rw [← e] at a1; exact a1.symm) (hp1 c hc)
          · exact hw
    obtain ⟨v, w, h1, h2, h3⟩ := hmem cols l e2 hd hc
    refine ⟨v, w, h1, h2, fun w' => ?_⟩
    rw [← h3 w']
    refine ⟨fun hw => ?_, fun hw => List.mem_cons_of_mem _ hw⟩
    rcases List.mem_cons.1 hw with e | hw
    · exact absurd (congrArg Prod.fst e) hne
    · exact hw

/-- C126 is false for dates and times: they come back as `None`, whatever the file holds. -/
theorem C126_violated_dates (t : FType) (ht : t = .date ∨ t = .time ∨ t = .datetime) (raw : Value) :
    readField trunc show' readInt readReal t raw = .ok .none := by
  rcases ht with rfl | rfl | rfl <;> cases raw <;> rfl

/-- C126 is false for missing text: `None` comes back as the text `"None"`. -/
theorem C126_violated_none (hdb : db.Faithful) (hs : show' .none = "None".toList) :
    attributes db trunc show' readInt readReal [⟨"NAME".toList, .string, "name".toList⟩] 1 [("name".toList, .none)] =
      .ok [("id".toList, .int 1), ("NAME".toList, .text "None".toList)] := by
  unfold attributes
  rw [show (List.filter (fun c : Shape.Column FType => db.supports c.typ) [⟨"NAME".toList, .string, "name".toList⟩]) =
    [⟨"NAME".toList, .string, "name".toList⟩] by simp [hdb.supports.2.2]]
  rw [show Shape.row [(⟨"NAME".toList, .string, "name".toList⟩ : Shape.Column FType)] 1 [("name".toList, Value.none)] =
    .ok (1, [("NAME".toList, Value.none)]) from rfl]
  dsimp only [List.zip_cons_cons, List.zip_nil_left]
  rw [each]
  dsimp only
  rw [hdb.empty, hdb.string.1]
  dsimp only [readField, Except.map]
  rw [each, hs]
  rfl

end

/-! ### C127 -/

theorem replace_fuel (old new : List Char) (ho : old ≠ []) : ∀ (n m : Nat) (s : List Char), s.length ≤ n → s.length ≤ m →
    replace old new n s = replace old new m s := by
  intro n
  induction n with
  | zero =>
    intro m s h _
    rw [List.length_eq_zero_iff.1 (Nat.le_zero.1 h)]
    cases m <;> rfl
  | succ n ih =>
    intro m s h1 h2
    cases s with
    | nil => cases m <;> rfl
    | cons c s =>
      cases m with
      | zero => simp at h2
      | succ m =>
        rw [List.length_cons] at h1 h2
        rw [replace, replace]
        by_cases hp : old.isPrefixOf (c :: s) = true
        · rw [if_pos hp, if_pos hp, ih m]
          all_goals
            have := List.length_pos_of_ne_nil ho
            rw [List.length_drop, List.length_cons]
            omega
        · rw [if_neg hp, if_neg hp, ih m s (by omega) (by omega)]

theorem prefix_word {old : List Char} (hb : ' ' ∉ old) (a b : List Char) : old.isPrefixOf (a ++ ' ' :: b) = old.isPrefixOf a := by
  induction old generalizing a with
  | nil => simp [List.isPrefixOf]
  | cons o old ih =>
    have ho : o ≠ ' ' := fun e => hb (by rw [e]; exact List.mem_cons_self)
    cases a with
    | nil => simp [List.isPrefixOf, ho]
    | cons c a =>
      rw [List.cons_append, List.isPrefixOf, List.isPrefixOf, ih fun h => hb (List.mem_cons_of_mem _ h)]

/-- Replacing goes word by word. -/
theorem replace_word (old new : List Char) (ho : old ≠ []) (hb : ' ' ∉ old) : ∀ (n : Nat) (a b : List Char), a.length + 1 + b.length ≤ n →
    replace old new n (a ++ ' ' :: b) = replace old new a.length a ++ ' ' :: replace old new b.length b := by
  intro n
  induction n with
  | zero => intro a b h; omega
  | succ n ih =>
    intro a b h
    cases a with
    | nil =>
      rw [List.nil_append, replace]
      have hp : old.isPrefixOf (' ' :: b) = old.isPrefixOf [] := prefix_word hb [] b
      have hp' : old.isPrefixOf ([] : List Char) = false := by cases old with | nil => exact absurd rfl ho | cons => rfl
      rw [hp, hp', if_neg (by simp), replace_fuel old new ho n b.length b (by simp at h; omega) (Nat.le_refl _)]
      rfl
    | cons c a =>
      rw [List.cons_append, List.length_cons, replace, replace]
      rw [List.length_cons] at h
      have hp : old.isPrefixOf (c :: (a ++ ' ' :: b)) = old.isPrefixOf (c :: a) := prefix_word hb (c :: a) b
      rw [hp]
      by_cases hq : old.isPrefixOf (c :: a) = true
      · rw [if_pos hq, if_pos hq]
        have hle : old.length ≤ (c :: a).length := (List.isPrefixOf_iff_prefix.1 hq).length_le
        have hpos := List.length_pos_of_ne_nil ho
        have e : List.drop old.length (c :: (a ++ ' ' :: b)) = List.drop old.length (c :: a) ++ ' ' :: b := by
          rw [← List.cons_append, List.drop_append_of_le_length hle]
        rw [e, ih _ b (by rw [List.length_drop, List.length_cons]; omega),
          replace_fuel old new ho a.length (List.drop old.length (c :: a)).length (List.drop old.length (c :: a))
            (by rw [List.length_drop, List.length_cons]; omega) (Nat.le_refl _), List.append_assoc]
      · rw [if_neg hq, if_neg hq, ih a b (by omega)]
        rfl

/-- Nothing is replaced in a text that does not contain the text looked for. -/
theorem replace_none (old new : List Char) : ∀ (n : Nat) (s : List Char), ¬ old <:+: s → replace old new n s = s := by
  intro n
  induction n with
  | zero => intro s _; rfl
  | succ n ih =>
    intro s h
    cases s with
    | nil => rfl
    | cons c s =>
      rw [replace, if_neg, ih s fun hi => h (hi.trans (List.suffix_cons c s).isInfix)]
      exact fun hp => h (List.isPrefixOf_iff_prefix.1 hp).isInfix

theorem layer_word (w w1 w2 rest : List Char) (h1 : replace "lonlat".toList "longlat".toList w.length w = w1)
    (h2 : replace "latlon".toList "latlong".toList w1.length w1 = w2)
    (hr : ¬ "lonlat".toList <:+: rest ∧ ¬ "latlon".toList <:+: rest) : layerProj4 (w ++ ' ' :: rest) = w2 ++ ' ' :: rest := by
  unfold layerProj4
  dsimp only
  rw [replace_word "lonlat".toList _ (by decide) (by decide) _ w rest (by simp; omega), h1, replace_none _ _ _ rest hr.1,
    replace_word "latlon".toList _ (by decide) (by decide) _ w1 rest (by simp; omega), h2, replace_none _ _ _ rest hr.2, if_neg (by simp)]

/-- C127: the definition of a projected system is written as it is; geographical systems get the name OSR knows. -/
theorem C127_written (s : List Char) :
    (s ≠ [] → ¬ "lonlat".toList <:+: s → ¬ "latlon".toList <:+: s → layerProj4 s = s) ∧
    (¬ "lonlat".toList <:+: s → ¬ "latlon".toList <:+: s →
      layerProj4 ("+proj=lonlat".toList ++ ' ' :: s) = "+proj=longlat".toList ++ ' ' :: s ∧
      layerProj4 ("+proj=longlat".toList ++ ' ' :: s) = "+proj=longlat".toList ++ ' ' :: s ∧
      layerProj4 ("+proj=latlon".toList ++ ' ' :: s) = "+proj=latlong".toList ++ ' ' :: s) := by
  refine ⟨fun hne h1 h2 => ?_, fun h1 h2 => ⟨?_, ?_, ?_⟩⟩
  · unfold layerProj4
    dsimp only
    rw [replace_none _ _ _ s h1, replace_none _ _ _ s h2, if_neg]
    exact fun e => hne (List.length_eq_zero_iff.1 e)
  · exact layer_word _ "+proj=longlat".toList _ s (by decide) (by decide) ⟨h1, h2⟩
  · exact layer_word _ "+proj=longlat".toList _ s (by decide) (by decide) ⟨h1, h2⟩
  · exact layer_word _ "+proj=latlon".toList _ s (by decide) (by decide) ⟨h1, h2⟩

/-- C127 is false for systems defined with `+proj=latlong`: the name is spoilt. -/
theorem C127_violated_latlong (s : List Char) (h1 : ¬ "lonlat".toList <:+: s) (h2 : ¬ "latlon".toList <:+: s) :
    layerProj4 ("+proj=latlong".toList ++ ' ' :: s) = "+proj=latlongg".toList ++ ' ' :: s :=
  layer_word _ "+proj=latlong".toList _ s (by decide) (by decide) ⟨h1, h2⟩

/-- C127 is false for Cartesian coordinates, whose definition is empty: the file says they are longitude and latitude on WGS84. -/
theorem C127_violated_cartesian : layerProj4 [] = "+proj=longlat +datum=WGS84".toList := rfl

/-- C127 in part: a file without system is in longitude and latitude on WGS84, a projected system is taken over, and a geographical one has the
ellipsoid of the file.  Missing: spheres and datums, see below. -/
theorem C127_read_partial (float : List Char → Except Err ℚ) (str : ℚ → List Char) (noName : List Char) :
    parseSrs float str noName none = .ok .wgs84 ∧
    (∀ p n, parseSrs float str noName (some (.projected p n)) = .ok (.projected p n)) ∧
    ∀ a invf : ℚ, a ≠ 0 → invf ≠ 0 → (∀ x ∈ [a, 1 / invf], float (str x) = .ok x ∧ '+' ∉ str x ∧ '=' ∉ str x) →
      ∃ g, parseSrs float str noName (some (.geographic a invf)) = .ok (.geographical g) ∧ g.ellipsoid.a = a ∧
        g.ellipsoid.f = some (1 / invf) ∧ g.ellipsoid.b = some (a * (1 - 1 / invf)) := by
  refine ⟨rfl, fun _ _ => rfl, fun a invf ha hf hx => ?_⟩
  obtain ⟨a1, a2⟩ := hx a (by simp)
  obtain ⟨f1, f2⟩ := hx (1 / invf) (by simp)
  have hcl : ∀ p ∈ [(⟨['a'], some (str a)⟩ : Ellps.Param), ⟨['f'], some (str (1 / invf))⟩], p.Clean := by
    intro p hp
    rcases List.mem_cons.1 hp with rfl | hp
    · exact ⟨(by decide : '+' ∉ ['a'] ∧ '=' ∉ ['a']), by rintro v ⟨⟩; exact a2⟩
    · rw [List.mem_singleton.1 hp]
      exact ⟨(by decide : '+' ∉ ['f'] ∧ '=' ∉ ['f']), by rintro v ⟨⟩; exact f2⟩
  have h := Ellps.C124_flattening_partial float [⟨['a'], some (str a)⟩, ⟨['f'], some (str (1 / invf))⟩] hcl (str a) (str (1 / invf)) a (1 / invf)
    (by simp) (by simp) a1 f1 ha (one_div_ne_zero hf) (by simp) (by simp)
  have h' : Ellps.parseEllipsoid float ["+a=".toList ++ str a, "+f=".toList ++ str (1 / invf)] = _ := h
  refine ⟨⟨"+proj=lonlat".toList :: ["+a=".toList ++ str a, "+f=".toList ++ str (1 / invf)] ++ ["+datum=WGS84".toList],
    ⟨"Unknown", a, some (a * (1 - 1 / invf)), some (1 / invf)⟩, noName⟩, ?_, rfl, rfl, rfl⟩
  unfold parseSrs
  dsimp only
  rw [if_neg hf]
  unfold Ellps.geographical
  rw [h']
  rfl

/-- C127 is false for files on a sphere, whose inverse flattening OSR gives as zero: `ZeroDivisionError`. -/
theorem C127_violated_sphere (float : List Char → Except Err ℚ) (str : ℚ → List Char) (noName : List Char) (a : ℚ) :
    parseSrs float str noName (some (.geographic a 0)) = .error .zeroDivision := rfl

/-- C127 is false for other datums: every geographical system is read as one on the datum WGS84. -/
theorem C127_violated_datum (float : List Char → Except Err ℚ) (str : ℚ → List Char) (noName : List Char) (a invf : ℚ) (g : Ellps.Geographical)
    (h : parseSrs float str noName (some (.geographic a invf)) = .ok (.geographical g)) : "+datum=WGS84".toList ∈ g.proj4 := by
  unfold parseSrs at h
  dsimp only at h
  by_cases hf : invf = 0
  · rw [if_pos hf] at h; cases h
  · rw [if_neg hf] at h
    unfold Ellps.geographical at h
    cases hp : Ellps.parseEllipsoid float ["+a=".toList ++ str a, "+f=".toList ++ str (1 / invf)] with
    | error e => rw [hp] at h; cases h
    | ok e => rw [hp] at h; cases h; simp

/-! ### Cases -/

/-- A driver that keeps what it is given. -/
def exactDriver : Driver where
  accepts k g := match k, g with
    | .point, .point _ _ | .line, .line _ _ | .polygon, .polygon _ _ | .multiPoint, .multiPoint _ _ | .multiLine, .multiLine _ _ => true
    | _, _ => false
  keep g := match g with
    | .multiLine _ [] => none
    | g => some g
  point v := v.take 3

theorem sameXY_refl {v : Coord} (h : Vertex v) : SameXY v v := by
  match v, h with
  | x :: y :: vs, _ => exact ⟨x, y, vs, vs, rfl, rfl⟩

theorem sameLine_refl : ∀ {r : List Coord}, (∀ v ∈ r, Vertex v) → SameLine r r
  | [], _ => .nil
  | v :: r, h => .cons (sameXY_refl (h v List.mem_cons_self)) (sameLine_refl fun v hv => h v (List.mem_cons_of_mem _ hv))

theorem exactDriver_faithful : Faithful exactDriver where
  point d v := ⟨rfl, d, v, rfl, sameXY_refl⟩
  line d vs _ hv := ⟨rfl, d, vs, rfl, sameLine_refl hv⟩
  polygon d rs _ hr := ⟨rfl, d, rs, rfl, by
    clear * - hr
    induction rs with
    | nil => exact .nil
    | cons r rs ih => exact .cons (Or.inl (sameLine_refl (hr r List.mem_cons_self).2.2)) (ih fun r h => hr r (List.mem_cons_of_mem _ h))⟩
  multiPoint d vs _ hv := ⟨rfl, d, vs, rfl, sameLine_refl hv⟩
  multiLine d rs h hr := ⟨rfl, d, Or.inl ⟨rs, by cases rs with | nil => exact absurd rfl h | cons => rfl, by
    clear * - hr
    induction rs with
    | nil => exact .nil
    | cons r rs ih => exact .cons (sameLine_refl (hr r List.mem_cons_self).2) (ih fun r h => hr r (List.mem_cons_of_mem _ h))⟩⟩
  get v h := by
    match v, h with
    | [x, y], _ => exact ⟨⟨x, y, [], [], rfl, rfl⟩, Or.inl rfl⟩
    | x :: y :: z :: vs, _ => exact ⟨⟨x, y, z :: vs, [z], rfl, rfl⟩, Or.inr rfl⟩

/-- Two polygons, one with a hole. -/
example : ∃ xs, trip exactDriver true "crs" (fun (r : Nat) => [("id", Val.scalar (some r))])
    [(.polygon [[0, 0], [4, 0], [4, 4]] [.polygon [[2, 1], [3, 1], [3, 2]]], 0), (.polygon [[9, 9], [8, 9], [8, 8]] [], 1)] = .ok xs ∧ xs.length = 2 := by
  obtain ⟨xs, h1, h2⟩ := C125_order_partial exactDriver exactDriver_faithful true "crs" (fun (r : Nat) => [("id", Val.scalar (some r))])
    [(.polygon [[0, 0], [4, 0], [4, 4]] [.polygon [[2, 1], [3, 1], [3, 2]]], 0), (.polygon [[9, 9], [8, 9], [8, 8]] [], 1)] (by simp)
    (by
      have hring : ∀ a b c d e f : ℚ, (a ≠ c ∨ b ≠ d) → (a ≠ e ∨ b ≠ f) → Ring [[a, b], [c, d], [e, f]] := by
        intro a b c d e f h1 h2
        refine ⟨by simp, by simp [Vertex], ?_⟩
        rintro v vs ⟨⟩ w hw ⟨x, y, us, ws, e1, e2⟩
        simp only [List.cons.injEq] at e1
        obtain ⟨rfl, rfl, -⟩ := e1
        simp only [List.mem_cons, List.not_mem_nil, or_false] at hw
        rcases hw with rfl | rfl
        · simp only [List.cons.injEq] at e2
          rcases h1 with h | h
          · exact h e2.1.symm
          · exact h e2.2.1.symm
        · simp only [List.cons.injEq] at e2
          rcases h2 with h | h
          · exact h e2.1.symm
          · exact h e2.2.1.symm
      intro g hg
      rcases List.mem_cons.1 hg with rfl | hg
      · exact ⟨hring _ _ _ _ _ _ (by norm_num) (by norm_num), [[[2, 1], [3, 1], [3, 2]]], rfl, by
          intro h hh; rw [List.mem_singleton.1 hh]; exact hring _ _ _ _ _ _ (by norm_num) (by norm_num)⟩
      · rw [List.mem_singleton.1 hg]
        exact ⟨hring _ _ _ _ _ _ (by norm_num) (by norm_num), [], rfl, by simp⟩)
    .polygon (by
      intro g hg
      rcases List.mem_cons.1 hg with rfl | hg
      · rfl
      · rw [List.mem_singleton.1 hg]; rfl)
  exact ⟨xs, h1, h2.length_eq.symm⟩

/-- A table that keeps what it is given. -/
def exactDbf : Dbf := ⟨fun t => decide (t = .integer ∨ t = .real ∨ t = .string ∨ t = .date), id, fun _ v => v⟩

theorem exactDbf_faithful : exactDbf.Faithful where
  supports := by decide
  integer := ⟨Or.inl rfl, fun _ => Or.inl rfl⟩
  real := ⟨rfl, fun _ => rfl⟩
  string := ⟨rfl, fun _ => rfl⟩
  empty _ := rfl

/-- Two features with a number and a name. -/
example : ∃ attrs, attributes exactDbf Int.floor (fun _ => "None".toList) (fun _ => .error .valueError) (fun _ => .error .valueError)
    [⟨"NAME".toList, .string, "name".toList⟩, ⟨"POP".toList, .integer, "pop".toList⟩] 1 [("name".toList, .text "b".toList), ("pop".toList, .none)] =
      .ok attrs ∧ ("id".toList, Value.int 1) ∈ attrs := by
  obtain ⟨attrs, h1, h2, -⟩ := C126_attributes_partial exactDbf Int.floor (fun _ => "None".toList) (fun _ => .error .valueError)
    (fun _ => .error .valueError) exactDbf_faithful (fun n => Int.floor_intCast n) (up := fun c => [c.toUpper])
    (objs := [[("name".toList, .text "a".toList), ("pop".toList, .int 5)], [("name".toList, .text "b".toList), ("pop".toList, .none)]])
    (fuel := 0) (ks := ["name".toList, "pop".toList])
    (cols := [⟨"NAME".toList, .string, "name".toList⟩, ⟨"POP".toList, .integer, "pop".toList⟩])
    ⟨by decide, by
      intro k
      constructor
      · intro hk
        refine ⟨?_, ?_⟩
        · intro p hp
          rcases List.mem_cons.1 hp with rfl | hp
          · exact hk
          · rw [List.mem_singleton.1 hp]; exact hk
        · rcases List.mem_cons.1 hk with rfl | hk
          · decide
          · rw [List.mem_singleton.1 hk]; decide
      · rintro ⟨h, -⟩
        exact h _ List.mem_cons_self⟩
    rfl (p := [("name".toList, .text "b".toList), ("pop".toList, .none)]) (by simp) 1
    (by
      intro c hc v hv
      rcases List.mem_cons.1 hc with rfl | hc
      · cases hv; exact trivial
      · rw [List.mem_singleton.1 hc] at hv ⊢
        cases hv; exact trivial)
  exact ⟨attrs, h1, h2⟩

/-- Two features, of which the first has no geometry: the line is read. -/
example : (readLayer exactDriver true "crs" (fun (r : Nat) => [("id", Val.scalar (some r))])
    [(none, 0), (some (.line .flat [[1, 2], [3, 4]]), 1)]).map List.length = .ok 1 := by
  rfl

end Karta.ShpFile
