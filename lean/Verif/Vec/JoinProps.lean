import Verif.Vec.Join
import Verif.Table.Props

/-!
Property C101: merging keeps every part, in order, with its attributes.
-/

namespace Karta.Join
open Karta Karta.Tab

variable {F V : Type} [DecidableEq F]

/-! ### Specification -/

/-- The attributes of the parts of an operand, one function from field names to values per part. -/
def attributes {S M : Type} : Item S M F V → List (F → Option (Option V))
  | .one _ p => [fun f => p.lookup f]
  | .many _ t => (List.range t.data.length).map fun i f => t.cell i f
  | .other => []

/-- The operand is a geometry of the kind that is merged. -/
def Item.Counts {S M : Type} : Item S M F V → Prop
  | .other => False
  | _ => True

/-- `f` is an attribute of the operand (of all its parts). -/
def Item.Has {S M : Type} : Item S M F V → F → Prop
  | .one _ p, f => f ∈ p.map Prod.fst
  | .many _ t, f => f ∈ t.fields
  | .other, _ => True

/-- The lines of an operand. -/
def linesOf : Item Arr (List Arr) F V → List Arr
  | .one a _ => [a]
  | .many as _ => as
  | .other => []

/-- The points of an operand. -/
def pointsOf : Item (List ℚ) Arr F V → List (List ℚ)
  | .one p _ => [p]
  | .many a _ => a.rows
  | .other => []

/-- The polygons of an operand that was not built from `Polygon`s with holes. -/
def ringsOf : Item Poly (List (List RingObj)) F V → List (List Arr)
  | .one p _ => [p.ring :: p.subs]
  | .many m _ => m.map fun p => p.map fun r => match r with | .coords a => a | .polygon a => a
  | .other => []

/-- Every row has the number of coordinates that the array says. -/
def Arr.WF (a : Arr) : Prop := ∀ r ∈ a.rows, r.length = a.rank

/-- The table of attributes is well formed and has one row per part (C57). -/
def Item.Tabled {S M : Type} (count : M → Nat) : Item S M F V → Prop
  | .many m t => t.WF ∧ t.data.length = count m
  | _ => True

/-- `k` is the smallest of the numbers of coordinates. -/
def SmallestRank (k : Nat) (as : List Arr) : Prop := (∀ a ∈ as, k ≤ a.rank) ∧ ∃ a ∈ as, a.rank = k

/-- The attribute table has exactly the common fields, and row `i` holds the attributes of the `i`th part. -/
def RowsOf {S M : Type} (t : Table F V) (items : List (Item S M F V)) : Prop :=
  (∀ f, f ∈ t.fields ↔ ∀ i ∈ items, i.Has f) ∧
  t.data.length = (items.flatMap attributes).length ∧
  ∀ i f, f ∈ t.fields → t.cell i f = ((items.flatMap attributes)[i]?).bind fun r => r f

/-! ### Helpers -/

theorem minFold (as : List Arr) (m : Nat) :
    (as.foldl (fun m b => min m b.rank) m ≤ m ∧ ∀ a ∈ as, as.foldl (fun m b => min m b.rank) m ≤ a.rank) ∧
    (as.foldl (fun m b => min m b.rank) m = m ∨ ∃ a ∈ as, a.rank = as.foldl (fun m b => min m b.rank) m) := by
  induction as generalizing m with
  | nil => simp
  | cons b as ih =>
    obtain ⟨⟨h1, h2⟩, h3⟩ := ih (min m b.rank)
    simp only [List.foldl_cons, List.mem_cons, forall_eq_or_imp]
    refine ⟨⟨by omega, by omega, h2⟩, ?_⟩
    rcases h3 with h3 | ⟨a, ha, h3⟩
    · rcases Nat.le_total m b.rank with h | h
      · left; omega
      · right; exact ⟨b, Or.inl rfl, by omega⟩
    · right; exact ⟨a, Or.inr ha, h3⟩

theorem maxFold (as : List Arr) (m : Nat) :
    m ≤ as.foldl (fun m b => max m b.rank) m ∧ (∀ a ∈ as, a.rank ≤ as.foldl (fun m b => max m b.rank) m) ∧
    (as.foldl (fun m b => max m b.rank) m = m ∨ ∃ a ∈ as, a.rank = as.foldl (fun m b => max m b.rank) m) := by
  induction as generalizing m with
  | nil => simp
  | cons b as ih =>
    obtain ⟨h1, h2, h3⟩ := ih (max m b.rank)
    simp only [List.foldl_cons, List.mem_cons, forall_eq_or_imp]
    refine ⟨by omega, ⟨by omega, h2⟩, ?_⟩
    rcases h3 with h3 | ⟨a, ha, h3⟩
    · rcases Nat.le_total m b.rank with h | h
      · right; exact ⟨b, Or.inl rfl, by omega⟩
      · left; omega
    · right; exact ⟨a, Or.inr ha, h3⟩

theorem minRank_spec {as : List Arr} (h : as ≠ []) : ∃ k, minRank as = .ok k ∧ SmallestRank k as := by
  cases as with
  | nil => exact absurd rfl h
  | cons a as =>
    obtain ⟨⟨h1, h2⟩, h3⟩ := minFold as a.rank
    refine ⟨_, rfl, ?_, ?_⟩
    · intro b hb
      rcases List.mem_cons.1 hb with rfl | hb
      · exact h1
      · exact h2 b hb
    · rcases h3 with h3 | ⟨b, hb, h3⟩
      · exact ⟨a, by simp, h3.symm⟩
      · exact ⟨b, by simp [hb], h3⟩

theorem maxRank_spec {as : List Arr} (h : as ≠ []) : ∃ k, maxRank as = .ok k ∧ (∀ a ∈ as, a.rank ≤ k) ∧ ∃ a ∈ as, a.rank = k := by
  cases as with
  | nil => exact absurd rfl h
  | cons a as =>
    obtain ⟨h1, h2, h3⟩ := maxFold as a.rank
    refine ⟨_, rfl, ?_, ?_⟩
    · intro b hb
      rcases List.mem_cons.1 hb with rfl | hb
      · exact h1
      · exact h2 b hb
    · rcases h3 with h3 | ⟨b, hb, h3⟩
      · exact ⟨a, by simp, h3.symm⟩
      · exact ⟨b, by simp [hb], h3⟩

theorem cut_self {k : Nat} {a : Arr} (h : a.WF) (hk : a.rank = k) : Arr.cut k a = a := by
  obtain ⟨r, rows⟩ := a
  simp only at hk
  subst hk
  simp only [Arr.cut, Arr.mk.injEq, min_self, true_and]
  conv_rhs => rw [← List.map_id rows]
  apply List.map_congr_left
  intro x hx
  exact List.take_of_length_le (le_of_eq (h x hx))

theorem cut_all {as : List Arr} (h : ∀ a ∈ as, a.WF) {lo hi : Nat} (h1 : ∀ a ∈ as, lo ≤ a.rank) (h2 : ∀ a ∈ as, a.rank ≤ hi) :
    (if lo ≠ hi then as.map (Arr.cut lo) else as) = as.map (Arr.cut lo) := by
  by_cases e : lo ≠ hi
  · rw [if_pos e]
  · rw [if_neg e]
    push Not at e
    conv_lhs => rw [← List.map_id as]
    apply List.map_congr_left
    intro a ha
    exact (cut_self (h a ha) (by have := h1 a ha; have := h2 a ha; omega)).symm

theorem mappings_mem {S M : Type} {items : List (Item S M F V)} {count : M → Nat} (ht : ∀ i ∈ items, i.Tabled count) :
    (∀ p ∈ mappings items, p.WF) ∧ (∀ f, (∀ p ∈ mappings items, p.has f) ↔ ∀ i ∈ items, i.Has f) ∧
    (mappings items).flatMap records = items.flatMap attributes := by
  induction items with
  | nil => simp [mappings]
  | cons i items ih =>
    obtain ⟨h1, h2, h3⟩ := ih fun j hj => ht j (by simp [hj])
    have hi := ht i (by simp)
    cases i with
    | one s p =>
      refine ⟨?_, ?_, ?_⟩
      · intro q hq
        rcases List.mem_cons.1 hq with rfl | hq
        · trivial
        · exact h1 q hq
      · intro f
        simp only [mappings, List.mem_cons, forall_eq_or_imp, h2]
        exact Iff.rfl
      · simp only [mappings, List.flatMap_cons, h3, records, attributes]
    | many m t =>
      refine ⟨?_, ?_, ?_⟩
      · intro q hq
        rcases List.mem_cons.1 hq with rfl | hq
        · exact hi.1
        · exact h1 q hq
      · intro f
        simp only [mappings, List.mem_cons, forall_eq_or_imp, h2]
        exact Iff.rfl
      · simp only [mappings, List.flatMap_cons, h3, records, attributes]
    | other =>
      refine ⟨h1, ?_, ?_⟩
      · intro f
        simp only [mappings, List.mem_cons, forall_eq_or_imp, h2]
        exact ⟨fun h => ⟨trivial, h⟩, fun h => h.2⟩
      · simp only [mappings, List.flatMap_cons, h3, attributes, List.nil_append]

theorem merge_rows {S M : Type} {items : List (Item S M F V)} {count : M → Nat} (ht : ∀ i ∈ items, i.Tabled count)
    (hc : ∃ i ∈ items, i.Counts) {keys : List F} (hn : keys.Nodup) (hk : ∀ k, k ∈ keys ↔ ∀ i ∈ items, i.Has k) :
    ∃ t, Table.merge (mappings items) keys = .ok t ∧ RowsOf t items := by
  obtain ⟨h1, h2, h3⟩ := mappings_mem ht
  have hne : mappings items ≠ [] := by
    obtain ⟨i, hi, hci⟩ := hc
    clear h1 h2 h3 ht hk
    induction items with
    | nil => simp at hi
    | cons j items ih =>
      rcases List.mem_cons.1 hi with rfl | hi'
      · cases i with
        | one => simp [mappings]
        | many => simp [mappings]
        | other => exact absurd hci (by simp [Item.Counts])
      · cases j with
        | one => simp [mappings]
        | many => simp [mappings]
        | other => exact ih hi'
  obtain ⟨t, h4, -, h5, h6, h7⟩ := C29_merge_is_inner_join (mappings items) hne h1 keys hn (fun k => (hk k).trans (h2 k).symm)
  rw [h3] at h6 h7
  exact ⟨t, h4, fun f => (h5 f).trans (h2 f), h6, h7⟩

theorem lineArrays_eq (items : List (Item Arr (List Arr) F V)) : lineArrays items = items.flatMap linesOf := by
  induction items with
  | nil => rfl
  | cons i items ih => cases i <;> simp [lineArrays, linesOf, ih]

theorem pointArrays_rows (items : List (Item (List ℚ) Arr F V)) : (pointArrays items).flatMap Arr.rows = items.flatMap pointsOf := by
  induction items with
  | nil => rfl
  | cons i items ih => cases i <;> simp [pointArrays, pointsOf, ih]

/-! ### C101 -/

/-- C101 for lines: the result has the parts of all operands in order, each cut to the smallest number of coordinates, exactly the common
attributes, and the attributes of each part beside it. -/
theorem C101_lines (items : List (Item Arr (List Arr) F V)) (keys : List F) (hw : ∀ i ∈ items, ∀ a ∈ linesOf i, a.WF)
    (ht : ∀ i ∈ items, i.Tabled List.length) (hne : items.flatMap linesOf ≠ []) (hn : keys.Nodup)
    (hk : ∀ k, k ∈ keys ↔ ∀ i ∈ items, i.Has k) :
    ∃ r vs t, mergeLines items keys = .ok (vs, t) ∧ SmallestRank r (items.flatMap linesOf) ∧
      vs = (items.flatMap linesOf).map (fun a => ⟨r, a.rows.map fun x => x.take r⟩) ∧ RowsOf t items ∧ t.data.length = vs.length := by
  have hw' : ∀ a ∈ items.flatMap linesOf, a.WF := by
    intro a ha
    obtain ⟨i, hi, ha⟩ := List.mem_flatMap.1 ha
    exact hw i hi a ha
  obtain ⟨lo, h1, h2⟩ := minRank_spec hne
  obtain ⟨hi, h3, h4, -⟩ := maxRank_spec hne
  have hc : ∃ i ∈ items, i.Counts := by
    obtain ⟨a, ha, -⟩ := h2.2
    obtain ⟨i, hi, ha⟩ := List.mem_flatMap.1 ha
    refine ⟨i, hi, ?_⟩
    cases i with
    | one => trivial
    | many => trivial
    | other => simp [linesOf] at ha
  obtain ⟨t, h5, h6⟩ := merge_rows ht hc hn hk
  refine ⟨lo, (items.flatMap linesOf).map (fun a => ⟨lo, a.rows.map fun x => x.take lo⟩), t, ?_, h2, rfl, h6, ?_⟩
  · unfold mergeLines
    have hl : items.length ≠ 0 := by
      intro e
      rw [List.length_eq_zero_iff] at e
      subst e
      exact hne rfl
    rw [if_neg hl]
    simp only [lineArrays_eq, h1, h3, h5, cut_all hw' h2.1 h4]
    congr 2
    apply List.map_congr_left
    intro a ha
    simp only [Arr.cut, Arr.mk.injEq, and_true]
    exact Nat.min_eq_left (h2.1 a ha)
  · rw [h6.2.1, List.length_map]
    clear h1 h2 h3 h4 h5 h6 hc hne hk hw hw'
    induction items with
    | nil => rfl
    | cons i items ih =>
      rw [List.flatMap_cons, List.flatMap_cons, List.length_append, List.length_append, ih fun j hj => ht j (by simp [hj])]
      congr 1
      have := ht i (by simp)
      cases i with
      | one => rfl
      | many m t => simp only [attributes, linesOf, List.length_map, List.length_range]; exact this.2
      | other => rfl

/-- C101 for points. -/
theorem C101_points (items : List (Item (List ℚ) Arr F V)) (keys : List F) (hw : ∀ i ∈ items, ∀ a t, i = .many a t → a.WF)
    (ht : ∀ i ∈ items, i.Tabled fun a => a.rows.length) (hc : ∃ i ∈ items, i.Counts) (hn : keys.Nodup)
    (hk : ∀ k, k ∈ keys ↔ ∀ i ∈ items, i.Has k) :
    ∃ r vs t, mergePoints items keys = .ok (vs, t) ∧
      (∀ p ∈ items.flatMap pointsOf, r ≤ p.length) ∧ ((∃ p ∈ items.flatMap pointsOf, p.length = r) ∨ ∃ i ∈ items, ∃ a t, i = .many a t ∧ a.rank = r) ∧
      vs = (items.flatMap pointsOf).map (fun p => p.take r) ∧ RowsOf t items ∧ t.data.length = vs.length := by
  have hw' : ∀ a ∈ pointArrays items, a.WF := by
    clear ht hc hk
    induction items with
    | nil => simp [pointArrays]
    | cons i items ih =>
      have ih := ih fun j hj => hw j (by simp [hj])
      cases i with
      | one p props =>
        intro a ha
        rcases List.mem_cons.1 ha with rfl | ha
        · intro r hr; simp only [List.mem_singleton] at hr; rw [hr]
        · exact ih a ha
      | many m t =>
        intro a ha
        rcases List.mem_cons.1 ha with rfl | ha
        · exact hw (.many a t) (by simp) a t rfl
        · exact ih a ha
      | other => exact ih
  have hmem : ∀ a ∈ pointArrays items, (∃ p ∈ items.flatMap pointsOf, p.length = a.rank) ∨ ∃ i ∈ items, ∃ b t, i = .many b t ∧ b.rank = a.rank := by
    clear ht hc hk hw hw'
    induction items with
    | nil => simp [pointArrays]
    | cons i items ih =>
      have lift : ∀ a ∈ pointArrays items, (∃ p ∈ (i :: items).flatMap pointsOf, p.length = a.rank) ∨ ∃ j ∈ i :: items, ∃ b t, j = .many b t ∧ b.rank = a.rank := by
        intro a ha
        rcases ih a ha with ⟨p, hp, e⟩ | ⟨j, hj, e⟩
        · exact Or.inl ⟨p, by rw [List.flatMap_cons]; exact List.mem_append_right _ hp, e⟩
        · exact Or.inr ⟨j, by simp [hj], e⟩
      cases i with
      | one p props =>
        intro a ha
        rcases List.mem_cons.1 ha with rfl | ha
        · exact Or.inl ⟨p, by simp [pointsOf], rfl⟩
        · exact lift a ha
      | many m t =>
        intro a ha
        rcases List.mem_cons.1 ha with rfl | ha
        · exact Or.inr ⟨.many a t, by simp, a, t, rfl, rfl⟩
        · exact lift a ha
      | other => exact lift
  have hne : pointArrays items ≠ [] := by
    obtain ⟨i, hi, hci⟩ := hc
    clear hw' hmem hw ht hk
    induction items with
    | nil => simp at hi
    | cons j items ih =>
      rcases List.mem_cons.1 hi with rfl | hi'
      · cases i with
        | one => simp [pointArrays]
        | many => simp [pointArrays]
        | other => exact absurd hci (by simp [Item.Counts])
      · cases j with
        | one => simp [pointArrays]
        | many => simp [pointArrays]
        | other => exact ih hi'
  obtain ⟨lo, h1, h2⟩ := minRank_spec hne
  obtain ⟨hi, h3, h4, -⟩ := maxRank_spec hne
  obtain ⟨t, h5, h6⟩ := merge_rows ht hc hn hk
  refine ⟨lo, (items.flatMap pointsOf).map (fun p => p.take lo), t, ?_, ?_, ?_, rfl, h6, ?_⟩
  · unfold mergePoints
    have hl : items.length ≠ 0 := by
      intro e
      rw [List.length_eq_zero_iff] at e
      subst e
      exact hne rfl
    rw [if_neg hl]
    simp only [h1, h3, h5, cut_all hw' h2.1 h4]
    congr 2
    rw [← pointArrays_rows, List.flatMap_map, List.map_flatMap]
    rfl
  · intro p hp
    rw [← pointArrays_rows] at hp
    obtain ⟨a, ha, hp⟩ := List.mem_flatMap.1 hp
    rw [hw' a ha p hp]
    exact h2.1 a ha
  · obtain ⟨a, ha, e⟩ := h2.2
    rw [← e]
    exact hmem a ha
  · rw [h6.2.1, List.length_map]
    clear h1 h2 h3 h4 h5 h6 hc hne hk hw hw' hmem
    induction items with
    | nil => rfl
    | cons i items ih =>
      rw [List.flatMap_cons, List.flatMap_cons, List.length_append, List.length_append, ih fun j hj => ht j (by simp [hj])]
      congr 1
      have := ht i (by simp)
      cases i with
      | one => rfl
      | many m t => simp only [attributes, pointsOf, List.length_map, List.length_range]; exact this.2
      | other => rfl

/-- The operand's holes are coordinate strings: it is a `Polygon`, or a collection built from rings. -/
def Item.Plain : Item Poly (List (List RingObj)) F V → Prop
  | .many m _ => ∃ ps, m = ofRings ps
  | _ => True

theorem ringArrays_coords (as : List Arr) : ringArrays (as.map .coords) = .ok as := by
  induction as with
  | nil => rfl
  | cons a as ih => simp only [List.map_cons, ringArrays, ih]

theorem vertices_ofRings (ps : List (List Arr)) : multipolygonVertices (ofRings ps) = .ok ps := by
  induction ps with
  | nil => rfl
  | cons p ps ih =>
    have ih' : multipolygonVertices (List.map (fun p => List.map RingObj.coords p) ps) = .ok ps := ih
    simp only [ofRings, List.map_cons, multipolygonVertices, ringArrays_coords, ih']

theorem ringsOf_plain (ps : List (List Arr)) (t : Table F V) : ringsOf (.many (ofRings ps) t) = ps := by
  simp only [ringsOf, ofRings, List.map_map]
  conv_rhs => rw [← List.map_id ps]
  apply List.map_congr_left
  intro p _
  simp only [Function.comp, List.map_map, id]
  conv_rhs => rw [← List.map_id p]
  rfl

theorem polygonArrays_plain {items : List (Item Poly (List (List RingObj)) F V)} (hp : ∀ i ∈ items, i.Plain) :
    polygonArrays items = .ok (items.flatMap ringsOf) := by
  induction items with
  | nil => rfl
  | cons i items ih =>
    have ih := ih fun j hj => hp j (by simp [hj])
    have hi := hp i (by simp)
    cases i with
    | one p props => simp only [polygonArrays, ih, List.flatMap_cons, ringsOf, List.singleton_append]
    | many m t =>
      obtain ⟨ps, rfl⟩ := hi
      simp only [polygonArrays, vertices_ofRings, ih, List.flatMap_cons, ringsOf_plain]
    | other => simp only [polygonArrays, ih, List.flatMap_cons, ringsOf, List.nil_append]

/-- C101 for polygons, when every ring has the same number of coordinates and no operand is a collection built from `Polygon`s with
holes.  Missing: the other cases, where it is false (`C101_violated_ranks`, `C101_violated_holes`). -/
theorem C101_polygons_partial (items : List (Item Poly (List (List RingObj)) F V)) (keys : List F) (hp : ∀ i ∈ items, i.Plain)
    (r : Nat) (hr : ∀ i ∈ items, ∀ p ∈ ringsOf i, ∀ a ∈ p, a.rank = r) (ht : ∀ i ∈ items, i.Tabled List.length)
    (hne : ∃ i ∈ items, ∃ p ∈ ringsOf i, p ≠ []) (hn : keys.Nodup) (hk : ∀ k, k ∈ keys ↔ ∀ i ∈ items, i.Has k) :
    ∃ t, mergePolygons items keys = .ok (items.flatMap ringsOf, t) ∧ RowsOf t items ∧ t.data.length = (items.flatMap ringsOf).length := by
  have hall : ∀ a ∈ (items.flatMap ringsOf).flatten, a.rank = r := by
    intro a ha
    obtain ⟨p, hp', ha⟩ := List.mem_flatten.1 ha
    obtain ⟨i, hi, hp'⟩ := List.mem_flatMap.1 hp'
    exact hr i hi p hp' a ha
  have hne' : (items.flatMap ringsOf).flatten ≠ [] := by
    obtain ⟨i, hi, p, hp', hpe⟩ := hne
    intro e
    rw [List.flatten_eq_nil_iff] at e
    exact hpe (e p (List.mem_flatMap.2 ⟨i, hi, hp'⟩))
  obtain ⟨lo, h1, h2⟩ := minRank_spec hne'
  obtain ⟨hi, h3, -, h4⟩ := maxRank_spec hne'
  have hc : ∃ i ∈ items, i.Counts := by
    obtain ⟨i, hi, p, hp', -⟩ := hne
    refine ⟨i, hi, ?_⟩
    cases i with
    | one => trivial
    | many => trivial
    | other => simp [ringsOf] at hp'
  obtain ⟨t, h5, h6⟩ := merge_rows ht hc hn hk
  have hlo : lo = r := by obtain ⟨a, ha, e⟩ := h2.2; rw [← e]; exact hall a ha
  have hhi : hi = r := by obtain ⟨a, ha, e⟩ := h4; rw [← e]; exact hall a ha
  refine ⟨t, ?_, h6, ?_⟩
  · unfold mergePolygons
    have hl : items.length ≠ 0 := by
      intro e
      rw [List.length_eq_zero_iff] at e
      subst e
      exact hne' rfl
    rw [if_neg hl]
    simp only [polygonArrays_plain hp, h1, h3, hlo, hhi, ne_eq, not_true_eq_false, if_false, h5]
  · rw [h6.2.1]
    clear h1 h2 h3 h4 h5 h6 hc hne hne' hall hk hr hlo hhi
    induction items with
    | nil => rfl
    | cons i items ih =>
      rw [List.flatMap_cons, List.flatMap_cons, List.length_append, List.length_append,
        ih (fun j hj => hp j (by simp [hj])) fun j hj => ht j (by simp [hj])]
      congr 1
      have := ht i (by simp)
      cases i with
      | one => rfl
      | many m t => simp only [attributes, ringsOf, List.length_map, List.length_range]; exact this.2
      | other => rfl

/-- C101 is false for polygons with different numbers of coordinates: `NameError`. -/
theorem C101_violated_ranks (items : List (Item Poly (List (List RingObj)) F V)) (keys : List F) (hp : ∀ i ∈ items, i.Plain)
    (a b : Arr) (ha : a ∈ (items.flatMap ringsOf).flatten) (hb : b ∈ (items.flatMap ringsOf).flatten) (hab : a.rank ≠ b.rank) :
    mergePolygons items keys = .error .nameError := by
  have hne' : (items.flatMap ringsOf).flatten ≠ [] := List.ne_nil_of_mem ha
  obtain ⟨lo, h1, h2⟩ := minRank_spec hne'
  obtain ⟨hi, h3, h4, -⟩ := maxRank_spec hne'
  have hl : items.length ≠ 0 := by
    intro e
    rw [List.length_eq_zero_iff] at e
    subst e
    exact hne' rfl
  have : lo ≠ hi := by
    have := h2.1 a ha; have := h2.1 b hb; have := h4 a ha; have := h4 b hb
    omega
  unfold mergePolygons
  rw [if_neg hl]
  simp only [polygonArrays_plain hp, h1, h3]
  rw [if_pos this]

theorem vertices_holes {ps : List Poly} (h : ∃ p ∈ ps, p.subs ≠ []) : multipolygonVertices (ofPolygons ps) = .error .attributeError := by
  induction ps with
  | nil => simp at h
  | cons p ps ih =>
    simp only [ofPolygons, List.map_cons, multipolygonVertices]
    cases hs : p.subs with
    | cons s ss => simp [ringArrays]
    | nil =>
      simp only [List.map_nil, ringArrays]
      have : ∃ q ∈ ps, q.subs ≠ [] := by
        obtain ⟨q, hq, hne⟩ := h
        rcases List.mem_cons.1 hq with rfl | hq
        · exact absurd hs hne
        · exact ⟨q, hq, hne⟩
      have := ih this
      simp only [ofPolygons] at this
      rw [this]

/-- C101 is false for a collection built from `Polygon`s of which one has a hole: even merging it alone raises `AttributeError`. -/
theorem C101_violated_holes (ps : List Poly) (t : Table F V) (keys : List F) (h : ∃ p ∈ ps, p.subs ≠ []) :
    mergePolygons [.many (ofPolygons ps) t] keys = .error .attributeError := by
  simp [mergePolygons, polygonArrays, vertices_holes h]

/-- A three-dimensional line with attributes a and b, and a collection of two plane lines with the attribute a only. -/
example : mergeLines (F := String) (V := Nat) [.one ⟨3, [[0, 0, 5], [1, 1, 6]]⟩ [("a", some 1), ("b", some 2)],
      .many [⟨2, [[2, 2]]⟩, ⟨2, [[3, 3], [4, 4]]⟩] ⟨["a"], [[some 7], [some 8]]⟩] ["a"] =
    .ok ([⟨2, [[0, 0], [1, 1]]⟩, ⟨2, [[2, 2]]⟩, ⟨2, [[3, 3], [4, 4]]⟩], ⟨["a"], [[some 1], [some 7], [some 8]]⟩) := by
  rfl

/-- The hypotheses of `C101_lines` hold there. -/
example : ∃ r vs t, mergeLines (F := String) (V := Nat) [.one ⟨3, [[0, 0, 5], [1, 1, 6]]⟩ [("a", some 1), ("b", some 2)],
      .many [⟨2, [[2, 2]]⟩, ⟨2, [[3, 3], [4, 4]]⟩] ⟨["a"], [[some 7], [some 8]]⟩] ["a"] = .ok (vs, t) ∧ r = 2 ∧ vs.length = 3 ∧ t.data.length = 3 := by
  obtain ⟨r, vs, t, h1, h2, h3, -, h4⟩ := C101_lines (F := String) (V := Nat) [.one ⟨3, [[0, 0, 5], [1, 1, 6]]⟩ [("a", some 1), ("b", some 2)],
      .many [⟨2, [[2, 2]]⟩, ⟨2, [[3, 3], [4, 4]]⟩] ⟨["a"], [[some 7], [some 8]]⟩] ["a"]
    (by simp [linesOf, Arr.WF]) (by simp only [List.mem_cons, List.not_mem_nil, or_false, forall_eq_or_imp, forall_eq, Item.Tabled, true_and]; exact ⟨⟨by simp, by simp⟩, rfl⟩)
    (by simp [linesOf]) (by simp) (by
      intro k
      simp only [List.mem_cons, List.not_mem_nil, or_false, forall_eq_or_imp, forall_eq, Item.Has, List.map_cons, List.map_nil]
      exact ⟨fun h => ⟨Or.inl h, h⟩, fun h => h.2⟩)
  have hl : vs.length = 3 := by rw [h3]; rfl
  refine ⟨r, vs, t, h1, ?_, hl, by rw [h4, hl]⟩
  obtain ⟨k1, a, ha, e⟩ := h2
  simp only [List.flatMap_cons, List.flatMap_nil, linesOf, List.append_nil, List.cons_append, List.nil_append, List.mem_cons, List.not_mem_nil,
    or_false, forall_eq_or_imp, forall_eq] at k1 ha
  rcases ha with rfl | rfl | rfl
  · simp only at e k1; omega
  · exact e.symm
  · exact e.symm

/-- Points: a plane point and a collection in space. -/
example : mergePoints (F := String) (V := Nat) [.one [1, 2] [("a", some 1)], .other, .many ⟨3, [[3, 4, 5], [6, 7, 8]]⟩ ⟨["b", "a"], [[none, some 2], [some 0, none]]⟩] ["a"] =
    .ok ([[1, 2], [3, 4], [6, 7]], ⟨["a"], [[some 1], [some 2], [none]]⟩) := by
  rfl

end Karta.Join
