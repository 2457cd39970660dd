import Verif.Table.Lemmas

/-!
Properties C28-C31 and C55-C58: attribute tables of multipart geometries.
-/

namespace Karta.Tab
open Karta
variable {F V : Type _} [DecidableEq F]

/-! ## C28 -/

/-- C28.  After `setfield(f, values)` on a table with rows, `getfield(f)` returns `values`,
`getfield` of any other name is what it was (including failing), and the number of rows is
unchanged. -/
theorem C28_setfield_getfield (t : Table F V) (h : t.WF) (hne : 0 < t.data.length) (f : F)
    (values : List (Option V)) (hl : values.length = t.data.length) :
    ∃ t', t.setfield f values = .ok t' ∧ t'.WF ∧ t'.data.length = t.data.length ∧
      t'.getfield f = .ok values ∧ ∀ g, g ≠ f → t'.getfield g = t.getfield g := by
  obtain ⟨t', e, w, l, hf, hc, ho⟩ := Table.setfield_spec h (by simp only [Table.len]; omega) f values hl
  exact ⟨t', e, w, l, Table.getfield_of_cells w ((hf f).2 (Or.inl rfl)) _ hc,
    fun g hg => Table.getfield_congr h w (by rw [hf]; simp [hg]) (fun i => ho i g hg)⟩

/-- C28, whole histories: after any sequence of assignments of full columns every field reads
as its last assigned column, or as at the start. -/
theorem C28_setfield_history (t : Table F V) (h : t.WF) (hne : 0 < t.data.length)
    (hist : List (F × List (Option V))) (hl : ∀ p ∈ hist, p.2.length = t.data.length) :
    ∃ t', runSets hist t = .ok t' ∧ t'.WF ∧ t'.data.length = t.data.length ∧
      ∀ g, t'.getfield g = match lastAssigned g hist with
        | some vs => .ok vs
        | none => t.getfield g := by
  induction hist generalizing t with
  | nil => exact ⟨t, rfl, h, rfl, fun g => rfl⟩
  | cons p rest ih =>
    obtain ⟨f, vs⟩ := p
    obtain ⟨t1, e1, w1, l1, g1, o1⟩ := C28_setfield_getfield t h hne f vs (hl (f, vs) (by simp))
    obtain ⟨t2, e2, w2, l2, g2⟩ := ih t1 w1 (by omega) (fun p hp => by
      rw [l1]; exact hl p (by simp [hp]))
    refine ⟨t2, by simp only [runSets, e1]; exact e2, w2, by omega, ?_⟩
    intro g
    rw [g2]
    simp only [lastAssigned]
    cases lastAssigned g rest with
    | some w => rfl
    | none =>
      by_cases hg : f = g
      · subst hg; simp [g1]
      · simp [hg, o1 g (Ne.symm hg)]

/-- C28, the refused case: a column of the wrong length raises `ValueError`. -/
theorem C28_wrong_length_refused (t : Table F V) (hne : 0 < t.data.length) (f : F)
    (values : List (Option V)) (hl : values.length ≠ t.data.length) :
    t.setfield f values = .error .valueError := by
  rw [Table.setfield, if_pos ⟨by simp only [Table.len]; omega, hl⟩]

/-- C28, tables without rows: the assigned column becomes the only one. -/
theorem C28_empty_table_keeps_only_new_column (t : Table F V) (he : t.data = []) (f : F)
    (values : List (Option V)) :
    ∃ t', t.setfield f values = .ok t' ∧ t'.WF ∧ t'.getfield f = .ok values ∧
      ∀ g, g ≠ f → t'.getfield g = .error .keyError := by
  have hw : (⟨[f], values.map fun v => [v]⟩ : Table F V).WF :=
    ⟨by simp, by simp⟩
  refine ⟨⟨[f], values.map fun v => [v]⟩, ?_, hw, ?_, ?_⟩
  · rw [Table.setfield, if_neg (by simp [Table.len, he]), if_pos (by simp [Table.len, he])]
  · apply Table.getfield_of_cells hw (by simp)
    intro i
    rw [Table.cell_eq hw (by simp)]
    cases h : values[i]? <;> simp [h]
  · intro g hg
    rw [Table.getfield, if_neg (by simpa using hg)]

/-- A two-field, two-row table meeting the hypotheses of C28-C31. -/
def exTable : Table String Nat := ⟨["a", "b"], [[some 1, some 2], [some 3, none]]⟩

theorem exTable_wf : exTable.WF := ⟨by decide, by decide⟩

example : (exTable.setfield "b" [some 7, some 8]).toOption.map (fun t => t.data)
    = some [[some 1, some 7], [some 3, some 8]] := by decide
example := C28_setfield_getfield exTable exTable_wf (by decide) "c" [some 7, some 8] rfl

/-! ## C29 -/

/-- C29, `extend`: one appended row per row of the other table, columns matched by name and
filled with `None`; existing rows and fields untouched. -/
theorem C29_extend_appends_rows (t o : Table F V) (h : t.WF) (ho : o.WF) :
    ∃ t', t.extend o = .ok t' ∧ t'.WF ∧ t'.fields = t.fields ∧
      t'.data.length = t.data.length + o.data.length ∧
      (∀ i f, i < t.data.length → t'.cell i f = t.cell i f) ∧
      (∀ i f, i < o.data.length → f ∈ t.fields →
        t'.cell (t.data.length + i) f = if f ∈ o.fields then o.cell i f else some none) := by
  obtain ⟨t', e, w, hf, hl, h1, h2⟩ := Table.extend_spec h ho
  refine ⟨t', e, w, hf, hl, h1, ?_⟩
  intro i f hi hft
  have := h2 i f hi hft
  simp only [Table.len] at this
  rw [this]
  by_cases hfo : f ∈ o.fields
  · rw [if_pos hfo, Table.cell_eq ho hfo]
    have hr : o.data[i].length = o.fields.length := ho.rows _ (List.getElem_mem _)
    have hidx := List.idxOf_lt_length_of_mem hfo
    simp [hi, hr, hidx]
  · rw [if_neg hfo, Table.cell_none hfo]; rfl

theorem mergeLoop_spec (parts : List (Table.Part F V)) (hp : ∀ p ∈ parts, p.WF) (t : Table F V)
    (h : t.WF) (hk : ∀ p ∈ parts, ∀ k ∈ t.fields, p.has k) :
    ∃ t', Table.mergeLoop parts t = .ok t' ∧ t'.WF ∧ t'.fields = t.fields ∧
      t'.data.length = t.data.length + (parts.flatMap records).length ∧
      (∀ i f, i < t.data.length → t'.cell i f = t.cell i f) ∧
      (∀ i f, f ∈ t.fields →
        t'.cell (t.data.length + i) f = ((parts.flatMap records)[i]?).bind fun r => r f) := by
  induction parts generalizing t with
  | nil =>
    refine ⟨t, rfl, h, rfl, by simp, fun _ _ _ => rfl, ?_⟩
    intro i f _
    simp [Table.cell]
  | cons p rest ih =>
    have hrest := fun p' hp' => hp p' (List.mem_cons_of_mem _ hp')
    cases p with
    | table o =>
      have ho : o.WF := hp (.table o) (by simp)
      obtain ⟨t1, e1, w1, f1, l1, a1, b1⟩ := C29_extend_appends_rows t o h ho
      obtain ⟨t2, e2, w2, f2, l2, a2, b2⟩ := ih hrest t1 w1 (by
        rw [f1]; exact fun p' hp' => hk p' (List.mem_cons_of_mem _ hp'))
      have hrec : (records (.table o : Table.Part F V)).length = o.data.length := by simp [records]
      refine ⟨t2, by simp only [Table.mergeLoop, e1]; exact e2, w2, by rw [f2, f1], ?_, ?_, ?_⟩
      · rw [l2, l1, List.flatMap_cons, List.length_append, hrec]; omega
      · intro i f hi; rw [a2 i f (by omega), a1 i f hi]
      · intro i f hf
        rw [List.flatMap_cons]
        by_cases hi : i < o.data.length
        · rw [a2 _ f (by omega), b1 i f hi hf, List.getElem?_append_left (by omega)]
          have hfo : f ∈ o.fields := hk (.table o) (by simp) f hf
          rw [if_pos hfo]
          simp [records, hi]
        · rw [List.getElem?_append_right (by omega), hrec]
          have := b2 (i - o.data.length) f (by rw [f1]; exact hf)
          rw [← this]
          congr 1; omega
    | record r =>
      have hw : (⟨t.fields, t.data ++ [t.fields.map fun k => (r.lookup k).getD none]⟩ :
          Table F V).WF := by
        refine ⟨h.nodup, ?_⟩
        intro row hrow
        rcases List.mem_append.1 hrow with hr | hr
        · exact h.rows row hr
        · rw [List.mem_singleton.1 hr]; simp
      obtain ⟨t2, e2, w2, f2, l2, a2, b2⟩ := ih hrest _ hw
        (fun p' hp' => hk p' (List.mem_cons_of_mem _ hp'))
      simp only [List.length_append, List.length_singleton] at l2 a2 b2
      refine ⟨t2, by simp only [Table.mergeLoop]; exact e2, w2, f2, ?_, ?_, ?_⟩
      · rw [l2, List.flatMap_cons, List.length_append]; simp [records]; omega
      · intro i f hi
        rw [a2 i f (by omega)]
        unfold Table.cell
        rw [List.getElem?_append_left hi]
      · intro i f hf
        rw [List.flatMap_cons]
        cases i with
        | zero =>
          rw [a2 _ f (by omega)]
          unfold Table.cell
          rw [List.getElem?_append_right (by omega)]
          simp only [Nat.add_zero, Nat.sub_self, List.getElem?_cons_zero, Option.bind_some]
          rw [Table.lookup_zip_map _ _ _ hf]
          have hfr : f ∈ r.map Prod.fst := hk (.record r) (by simp) f hf
          simp only [records, List.cons_append, List.nil_append, List.getElem?_cons_zero,
            Option.bind_some]
          cases hv : r.lookup f with
          | none =>
            rw [List.lookup_eq_none_iff] at hv
            obtain ⟨q, hq, rfl⟩ := List.mem_map.1 hfr
            have := hv q hq
            simp at this
          | some v => rfl
        | succ i =>
          have := b2 i f hf
          rw [show t.data.length + (i + 1) = t.data.length + 1 + i by omega, this]
          simp [records]

/-- C29, `merge`: the result has exactly the fields common to all operands (in whatever order
the set of common names is iterated) and its rows are the operands' rows, in order. -/
theorem C29_merge_is_inner_join (parts : List (Table.Part F V)) (hne : parts ≠ [])
    (hp : ∀ p ∈ parts, p.WF) (keys : List F) (hn : keys.Nodup)
    (hk : ∀ k, k ∈ keys ↔ ∀ p ∈ parts, p.has k) :
    ∃ t, Table.merge parts keys = .ok t ∧ t.WF ∧
      (∀ k, k ∈ t.fields ↔ ∀ p ∈ parts, p.has k) ∧
      t.data.length = (parts.flatMap records).length ∧
      (∀ i f, f ∈ t.fields → t.cell i f = ((parts.flatMap records)[i]?).bind fun r => r f) := by
  obtain ⟨t, e, w, hf, hl, _, hc⟩ := mergeLoop_spec parts hp (Table.ofSize keys 0)
    ⟨hn, by simp [Table.ofSize]⟩ (fun p hp' k hkk => (hk k).1 hkk p hp')
  refine ⟨t, ?_, w, ?_, ?_, ?_⟩
  · rw [Table.merge, if_neg (by simpa using hne)]; exact e
  · intro k; rw [hf]; exact hk k
  · rw [hl]; simp [Table.ofSize]
  · intro i f hft
    have := hc i f (by rw [← hf]; exact hft)
    simpa [Table.ofSize] using this

/-- C29: merging nothing raises `TypeError`. -/
theorem C29_merge_of_nothing (keys : List F) :
    (Table.merge ([] : List (Table.Part F V)) keys) = .error .typeError := rfl

example : (Table.merge [.table exTable, .record [("b", some 9), ("z", some 0)]] ["b"]).toOption.map
    (fun t => (t.fields, t.data)) = some (["b"], [[some 2], [none], [some 9]]) := by decide
example := C29_merge_is_inner_join [.table exTable, .record [("b", some 9), ("z", some 0)]]
    (by simp) (by simp [Table.Part.WF, exTable_wf]) ["b"] (by simp)
    (by simp [Table.Part.has, exTable]; intro k; constructor
        · rintro rfl; simp
        · rintro ⟨h1, h2⟩; rcases h1 with rfl | rfl <;> simp_all)

/-! ## C30 -/

/-- C30 for tables with rows.  The result has all fields of both operands; the argument's
columns win; whatever the iteration orders of the two sets of names.  Missing from the full
statement: tables without rows, see `C30_violated_empty_table`. -/
theorem C30_updated_with_table_partial (t m : Table F V) (h : t.WF) (hm : m.WF)
    (hne : 0 < t.data.length) (hl : m.data.length = t.data.length) (ordM ordS : List F)
    (hM : IsOrder ordM m.fields) (hS : IsOrder ordS t.fields) :
    ∃ t', t.updated (.table m) ordM ordS = .ok t' ∧ t'.WF ∧
      t'.data.length = t.data.length ∧
      (∀ g, g ∈ t'.fields ↔ g ∈ m.fields ∨ g ∈ t.fields) ∧
      (∀ g, t'.getfield g = if g ∈ m.fields then m.getfield g else t.getfield g) := by
  have hlen : t.len ≠ 0 := by simp only [Table.len]; omega
  have hcl : ∀ p ∈ Table.colsOf m ordM, p.2.length = t.len := by
    intro p hp
    obtain ⟨f, hf, rfl⟩ := List.mem_map.1 hp
    obtain ⟨c, e, hc, _⟩ := Table.getfield_spec hm ((hM.2 f).1 hf)
    simp only [e, Except.toOption, Option.getD]
    rw [hc]; exact hl
  have hkeys : (Table.colsOf m ordM).map Prod.fst = ordM := by
    simp [Table.colsOf, Function.comp_def]
  obtain ⟨t1, e1, w1, l1, f1, c1⟩ := Table.setFromDict_spec t.len t.len (Or.inr rfl) hlen
    (Table.colsOf m ordM) (by rw [hkeys]; exact hM.1) hcl (Table.ofSize [] t.len)
    (Table.wf_ofSize _) (by simp [Table.len, Table.ofSize])
  obtain ⟨t2, e2, w2, l2, f2, c2⟩ := Table.setOwn_spec h hlen ordS (fun f hf => (hS.2 f).1 hf)
    t1 w1 l1
  have ff1 : ∀ g, g ∈ t1.fields ↔ g ∈ m.fields := by
    intro g; rw [f1, hkeys]; simp [Table.ofSize, hM.2]
  have ff2 : ∀ g, g ∈ t2.fields ↔ g ∈ m.fields ∨ g ∈ t.fields := by
    intro g; rw [f2, ff1, hS.2]; tauto
  have cc1 : ∀ i g, g ∈ m.fields → t1.cell i g = m.cell i g := by
    intro i g hg
    rw [c1, Table.lookup_colsOf, if_pos ((hM.2 g).2 hg)]
    exact Table.getfield_col hm hg i
  refine ⟨t2, ?_, w2, l2, ff2, ?_⟩
  · simp only [Table.updated]
    rw [if_neg (by simp only [Table.len]; omega),
      Table.setFromTable_eq hm ordM (fun f hf => (hM.2 f).1 hf) t.len hl, e1]
    exact e2
  · intro g
    by_cases hg : g ∈ m.fields
    · rw [if_pos hg]
      apply Table.getfield_congr hm w2
      · rw [ff2]; simp [hg]
      · intro i
        rw [c2, if_neg (by simp [(ff1 g).2 hg]), cc1 i g hg]
    · rw [if_neg hg]
      apply Table.getfield_congr h w2
      · rw [ff2]; simp [hg]
      · intro i
        rw [c2]
        by_cases hgs : g ∈ t.fields
        · rw [if_pos ⟨fun hh => hg ((ff1 g).1 hh), (hS.2 g).2 hgs⟩]
        · rw [if_neg (fun hh => hgs ((hS.2 g).1 hh.2)),
            Table.cell_none (fun hh => hg ((ff1 g).1 hh)), Table.cell_none hgs]

/-- C30 for tables with rows and a dictionary argument with full-length columns. -/
theorem C30_updated_with_dict_partial (t : Table F V) (h : t.WF) (hne : 0 < t.data.length)
    (d : List (F × List (Option V))) (hd : (d.map Prod.fst).Nodup)
    (hl : ∀ p ∈ d, p.2.length = t.data.length) (ordM ordS : List F)
    (hS : IsOrder ordS t.fields) :
    ∃ t', t.updated (.dict d) ordM ordS = .ok t' ∧ t'.WF ∧ t'.data.length = t.data.length ∧
      (∀ g, g ∈ t'.fields ↔ g ∈ d.map Prod.fst ∨ g ∈ t.fields) ∧
      (∀ g, t'.getfield g = match d.lookup g with
        | some vs => .ok vs
        | none => t.getfield g) := by
  have hlen : t.len ≠ 0 := by simp only [Table.len]; omega
  obtain ⟨t1, e1, w1, l1, f1, c1⟩ := Table.setFromDict_spec t.len t.len (Or.inr rfl) hlen
    d hd hl (Table.ofSize [] t.len) (Table.wf_ofSize _) (by simp [Table.len, Table.ofSize])
  obtain ⟨t2, e2, w2, l2, f2, c2⟩ := Table.setOwn_spec h hlen ordS (fun f hf => (hS.2 f).1 hf)
    t1 w1 l1
  have ff1 : ∀ g, g ∈ t1.fields ↔ g ∈ d.map Prod.fst := by
    intro g; rw [f1]; simp [Table.ofSize]
  have ff2 : ∀ g, g ∈ t2.fields ↔ g ∈ d.map Prod.fst ∨ g ∈ t.fields := by
    intro g; rw [f2, ff1, hS.2]; tauto
  have hlk : ∀ g, d.lookup g = none ↔ g ∉ d.map Prod.fst := by
    intro g
    rw [List.lookup_eq_none_iff]
    constructor
    · intro hh hg
      obtain ⟨q, hq, rfl⟩ := List.mem_map.1 hg
      simpa using hh q hq
    · intro hh q hq
      simp only [bne_iff_ne, ne_eq]
      intro e
      exact hh (List.mem_map.2 ⟨q, hq, e.symm⟩)
  refine ⟨t2, ?_, w2, l2, ff2, ?_⟩
  · simp only [Table.updated, e1]
    exact e2
  · intro g
    cases hv : d.lookup g with
    | some vs =>
      have hg : g ∈ d.map Prod.fst := by
        by_contra hh
        rw [(hlk g).2 hh] at hv; cases hv
      apply Table.getfield_of_cells w2 ((ff2 g).2 (Or.inl hg))
      intro i
      rw [c2, if_neg (by simpa using fun hh => absurd ((ff1 g).2 hg) hh), c1, hv]
    | none =>
      have hg := (hlk g).1 hv
      apply Table.getfield_congr h w2
      · rw [ff2]; simp [hg]
      · intro i
        rw [c2]
        by_cases hgs : g ∈ t.fields
        · rw [if_pos ⟨fun hh => hg ((ff1 g).1 hh), (hS.2 g).2 hgs⟩]
        · rw [if_neg (fun hh => hgs ((hS.2 g).1 hh.2)),
            Table.cell_none (fun hh => hg ((ff1 g).1 hh)), Table.cell_none hgs]

/-- C30: a table of a different length is refused. -/
theorem C30_unequal_length_refused (t m : Table F V) (hne : 0 < t.data.length)
    (hl : m.data.length ≠ t.data.length) (ordM ordS : List F) :
    t.updated (.table m) ordM ordS = .error .valueError := by
  simp only [Table.updated]
  rw [if_pos ⟨by simp only [Table.len]; omega, hl⟩]

/-- C30 is false for tables without rows: updating the empty table with fields `a`, `b` from
an empty dictionary loses field `a`, because `setfield` on a table without rows discards the
fields it had. -/
theorem C30_violated_empty_table :
    ((⟨["a", "b"], []⟩ : Table String Nat).updated (.dict []) [] ["a", "b"]).toOption.map
      (fun t => t.fields) = some ["b"] := by decide

example := C30_updated_with_table_partial exTable ⟨["b", "c"], [[some 5, none], [none, some 6]]⟩
  exTable_wf ⟨by decide, by decide⟩ (by decide) rfl ["c", "b"] ["b", "a"]
  ⟨by decide, by simp [or_comm]⟩ ⟨by decide, by simp [exTable, or_comm]⟩
example := C30_updated_with_dict_partial exTable exTable_wf (by decide)
  [("b", [some 5, none]), ("q", [none, none])] (by decide) (by decide) [] ["b", "a"]
  ⟨by decide, by simp [exTable, or_comm]⟩

/-! ## C31 -/

/-- C31 when the set of field names happens to be iterated in column order: the `k`th selected
point is the `idxs[k]`th original point, with that point's attribute values.  Missing: other
iteration orders, for which the property is false (`C31_violated_two_fields`). -/
theorem C31_subset_partial {T : Type _} (pts : List T) (t : Table F V) (h : t.WF)
    (hl : t.data.length = pts.length) (idxs : List Nat) (hi : ∀ i ∈ idxs, i < pts.length) :
    ∃ vs t', subset pts t idxs t.fields = .ok (vs, t') ∧ t'.WF ∧
      vs.length = idxs.length ∧ t'.data.length = idxs.length ∧
      ∀ k i : Nat, idxs[k]? = some i →
        vs[k]? = pts[i]? ∧ ∀ f, t'.cell k f = t.cell i f := by
  obtain ⟨vs, e1, l1, k1⟩ := pick_ok pts idxs hi
  obtain ⟨rows, e2, l2, k2⟩ := pick_ok t.data idxs (fun i h => by rw [hl]; exact hi i h)
  have hrows : ∀ r ∈ rows, r.length = t.fields.length := by
    intro r hr
    obtain ⟨k, hk⟩ := List.getElem?_of_mem hr
    rw [k2] at hk
    cases hik : idxs[k]? with
    | none => rw [hik] at hk; simp at hk
    | some i =>
      rw [hik] at hk
      exact h.row (by simpa using hk)
  have hof : Table.ofRows rows t.fields = .ok ⟨t.fields, rows⟩ := by
    cases rows with
    | nil => rfl
    | cons r rs =>
      simp only [Table.ofRows]
      rw [if_neg (by simpa using hrows r (by simp))]
  refine ⟨vs, ⟨t.fields, rows⟩, ?_, ⟨h.nodup, hrows⟩, l1, l2, ?_⟩
  · simp only [subset, e1, e2, hof]
  · intro k i hk
    refine ⟨by rw [k1, hk]; rfl, fun f => ?_⟩
    unfold Table.cell
    simp only []
    rw [k2, hk]
    rfl

/-- C31 holds for tables with at most one attribute, whatever the iteration order. -/
theorem C31_subset_single_field_partial {T : Type _} (pts : List T) (t : Table F V) (h : t.WF)
    (hl : t.data.length = pts.length) (idxs : List Nat) (hi : ∀ i ∈ idxs, i < pts.length)
    (h1 : t.fields.length ≤ 1) (ord : List F) (ho : IsOrder ord t.fields) :
    ∃ vs t', subset pts t idxs ord = .ok (vs, t') ∧
      vs.length = idxs.length ∧ t'.data.length = idxs.length ∧
      ∀ k i : Nat, idxs[k]? = some i →
        vs[k]? = pts[i]? ∧ ∀ f, t'.cell k f = t.cell i f := by
  have : ord = t.fields := by
    obtain ⟨hn, hm⟩ := ho
    match hfs : t.fields, h1 with
    | [], _ =>
      cases ord with
      | nil => rfl
      | cons a as => have := (hm a).1 (by simp); rw [hfs] at this; simp at this
    | [f], _ =>
      rw [hfs] at hm
      cases ord with
      | nil => have := (hm f).2 (by simp); simp at this
      | cons a as =>
        have ha : a = f := by simpa using (hm a).1 (by simp)
        cases as with
        | nil => rw [ha]
        | cons b bs =>
          have hb : b = f := by simpa using (hm b).1 (by simp)
          rw [ha, hb] at hn
          simp at hn
  subst this
  obtain ⟨vs, t', e, _, l1, l2, k⟩ := C31_subset_partial pts t h hl idxs hi
  exact ⟨vs, t', e, l1, l2, k⟩

/-- C31 is false with two attributes when the set of their names is iterated in the other
order: the selected point's `a` becomes what was its `b`. -/
theorem C31_violated_two_fields :
    (subset [(0, 0), (1, 1)] exTable [0] ["b", "a"]).toOption.map
      (fun r => (r.2.cell 0 "a", exTable.cell 0 "a")) = some (some (some 2), some (some 1)) := by
  decide

example := C31_subset_partial [(0, 0), (1, 1)] exTable exTable_wf rfl [1, 0] (by decide)
example := C31_subset_single_field_partial [(0, 0), (1, 1)]
  (⟨["a"], [[some 1], [none]]⟩ : Table String Nat) ⟨by decide, by decide⟩ rfl [1, 0]
  (by decide) (by decide) ["a"] ⟨by decide, by simp⟩

/-! ## C55 -/

omit [DecidableEq F] in
/-- C55.  Each property of a multipart feature ends up in exactly one of the two dictionaries,
unchanged: in the per-part data when its length is the number of parts, in the geometry's
properties otherwise; nothing is added, lost or reordered. -/
theorem C55_properties_partitioned {W : Type _} (n : Nat) (items : List (F × PropVal W)) :
    (partition n items).1 = items.filter (fun kv => decide (kv.2.len = some n)) ∧
    (partition n items).2 = items.filter (fun kv => !decide (kv.2.len = some n)) := by
  induction items with
  | nil => exact ⟨rfl, rfl⟩
  | cons kv rest ih =>
    obtain ⟨k, v⟩ := kv
    obtain ⟨ih1, ih2⟩ := ih
    cases hl : v.len with
    | none => simp [partition, hl, ih1, ih2]
    | some m =>
      by_cases hm : m = n
      · simp [partition, hl, hm, ih1, ih2]
      · simp [partition, hl, hm, ih1, ih2]

omit [DecidableEq F] in
/-- C55, as membership. -/
theorem C55_each_property_in_exactly_one {W : Type _} (n : Nat) (items : List (F × PropVal W))
    (kv : F × PropVal W) :
    (kv ∈ (partition n items).1 ↔ kv ∈ items ∧ kv.2.len = some n) ∧
    (kv ∈ (partition n items).2 ↔ kv ∈ items ∧ kv.2.len ≠ some n) := by
  rw [(C55_properties_partitioned n items).1, (C55_properties_partitioned n items).2]
  simp

example : (partition 2 [("a", ⟨some 2, 1⟩), ("b", ⟨none, 2⟩), ("c", ⟨some 3, 3⟩)]).1.map
    (fun kv => (kv.1, kv.2.val)) = [("a", 1)] := by decide

/-! ## C56 -/

/-- C56.  Building a multipart geometry from parts that have at least one common property key
gives a table with one row per part whose fields are exactly the common keys and whose cell
`(i, k)` is part `i`'s value of `k`. -/
theorem C56_parts_inner_join (props : List (List (F × Option V))) (keys : List F)
    (hn : keys.Nodup) (hne : props ≠ []) (hk0 : keys ≠ [])
    (hk : ∀ k, k ∈ keys ↔ ∀ p ∈ props, k ∈ p.map Prod.fst) :
    ∃ t, tableFromParts props keys = .ok t ∧ t.WF ∧ t.data.length = props.length ∧
      (∀ k, k ∈ t.fields ↔ ∀ p ∈ props, k ∈ p.map Prod.fst) ∧
      (∀ (i : Nat) k, k ∈ t.fields → t.cell i k = (props[i]?).bind fun p => p.lookup k) := by
  obtain ⟨d, e, hd, hv⟩ := joinLoop_ok props keys (fun k hkk p hp => (hk k).1 hkk p hp)
  have hpl : props.length ≠ 0 := by simpa using hne
  cases d with
  | nil => exact absurd (by simpa using hd.symm) hk0
  | cons kv rest =>
    obtain ⟨f, vs⟩ := kv
    have hvs := hv (f, vs) (by simp)
    have hw : (⟨[f], vs.map fun v => [v]⟩ : Table F V).WF := ⟨by simp, by simp⟩
    have hnod : (f :: rest.map Prod.fst).Nodup := by
      have : ((f, vs) :: rest).map Prod.fst = keys := hd
      simp only [List.map_cons] at this
      rw [this]; exact hn
    obtain ⟨t, e2, w, l, ff, cc⟩ := Table.setFromDict_spec 0 props.length (Or.inl rfl) hpl rest
      (List.nodup_cons.1 hnod).2 (fun p hp => (hv p (by simp [hp])).1) _ hw
      (by simp only [Table.len, List.length_map]; exact hvs.1)
    have hfields : ∀ k, k ∈ t.fields ↔ k ∈ keys := by
      intro k
      rw [ff, ← hd]
      simp [or_comm]
    refine ⟨t, ?_, w, l, ?_, ?_⟩
    · simp only [tableFromParts, mergeProperties]
      rw [if_neg hpl, e]
      simp only [Table.updated, Table.ofDict, Table.ofSize, Table.len, List.length_nil,
        List.replicate_zero, Table.setFromDict, Table.setfield]
      simp only [ne_eq, not_true_eq_false, false_and, if_false, if_true, e2, Table.setOwn]
    · intro k; rw [hfields, hk]
    · intro i k hkf
      rw [cc]
      cases hr : rest.lookup k with
      | some ws =>
        have hm : (k, ws) ∈ rest := by
          rw [List.lookup_eq_some_iff] at hr
          obtain ⟨l₁, l₂, h1, _⟩ := hr
          rw [h1]; simp
        exact (hv (k, ws) (by simp [hm])).2 i
      | none =>
        have hkey : k = f := by
          have := (ff k).1 hkf
          rcases this with h1 | h1
          · exfalso
            rw [List.lookup_eq_none_iff] at hr
            obtain ⟨q, hq, rfl⟩ := List.mem_map.1 h1
            simpa using hr q hq
          · simpa using h1
        subst hkey
        simp only []
        rw [← hvs.2 i, Table.cell_eq hw (by simp)]
        cases hvi : vs[i]? <;> simp [hvi]

example := C56_parts_inner_join [[("a", some 1), ("b", some 2)], [("b", some 5), ("a", none)]]
  ["b", "a"] (by decide) (by simp) (by simp) (by
    intro k
    simp only [List.map_cons, List.map_nil, List.mem_cons, List.not_mem_nil, or_false,
      forall_eq_or_imp, forall_eq]
    tauto)
example : (tableFromParts [[("a", some 1), ("b", some 2)], [("b", some 5), ("a", none)]]
    ["b", "a"]).toOption.map (fun t => (t.fields, t.data))
    = some (["b", "a"], [[some 2, some 1], [some 5, none]]) := by decide

/-! ## C57 -/

theorem zip_rows_cells (d : List (F × List (Option V))) (n : Nat) (hne : d ≠ [])
    (hk : (d.map Prod.fst).Nodup) (hl : ∀ p ∈ d, p.2.length = n) :
    (Table.ofColumns d).WF ∧ (Table.ofColumns d).data.length = n ∧
      ∀ p ∈ d, (Table.ofColumns d).getfield p.1 = .ok p.2 := by
  have hmin : ∀ cs : List (List (Option V)), cs ≠ [] → (∀ c ∈ cs, c.length = n) →
      Table.minLen cs = n := by
    intro cs
    induction cs with
    | nil => intro h; exact absurd rfl h
    | cons c cs ih =>
      intro _ hc
      cases cs with
      | nil => exact hc c (by simp)
      | cons c' cs =>
        simp only [Table.minLen]
        rw [ih (by simp) (fun x hx => hc x (by simp [hx])), hc c (by simp)]
        exact Nat.min_self n
  have hm : Table.minLen (d.map Prod.snd) = n :=
    hmin _ (by simpa using hne) (by
      intro c hc; obtain ⟨p, hp, rfl⟩ := List.mem_map.1 hc; exact hl p hp)
  have hw : (Table.ofColumns d).WF := by
    refine ⟨hk, ?_⟩
    intro r hr
    simp only [Table.ofColumns, List.mem_map] at hr ⊢
    obtain ⟨i, _, rfl⟩ := hr
    simp
  refine ⟨hw, by simp [Table.ofColumns, hm], ?_⟩
  intro p hp
  have hmem : p.1 ∈ (Table.ofColumns d).fields := List.mem_map.2 ⟨p, hp, rfl⟩
  apply Table.getfield_of_cells hw hmem
  intro i
  rw [Table.cell_eq hw hmem]
  simp only [Table.ofColumns, List.getElem?_map, hm]
  by_cases hi : i < n
  · rw [List.getElem?_range hi]
    simp only [Option.map_some, Option.bind_some, List.getElem?_map]
    have hidx : d[(d.map Prod.fst).idxOf p.1]? = some p := by
      obtain ⟨j, hj⟩ := List.getElem?_of_mem hp
      have hjl : j < d.length := by
        by_contra hh
        rw [List.getElem?_eq_none (by omega)] at hj; cases hj
      have : (d.map Prod.fst).idxOf p.1 = j := by
        have h1 : (d.map Prod.fst)[j]'(by simpa using hjl) = p.1 := by
          have : d[j] = p := by rw [List.getElem?_eq_getElem hjl] at hj; exact Option.some.inj hj
          simp [this]
        rw [← h1]
        exact hk.idxOf_getElem j (by simpa using hjl)
      rw [this]; exact hj
    rw [hidx]
    have := hl p hp
    simp [List.getElem?_eq_getElem (show i < p.2.length by omega)]
  · rw [List.getElem?_eq_none (by simp; omega), List.getElem?_eq_none (by rw [hl p hp]; omega)]
    rfl

/-- C57 for geometries built without data: one attribute row for each part, without fields. -/
theorem C57_without_data (n : Nat) : ∃ t : Table F V, multipartTable n .none = .ok t ∧ t.WF ∧
    t.data.length = n ∧ t.fields = [] :=
  ⟨Table.ofSize [] n, rfl, Table.wf_ofSize n, by simp [Table.ofSize], rfl⟩

/-- C57 for geometries built with a dictionary of sequences, empty or not: one attribute row
per part, columns as given.  Missing: string columns, ready-made tables and parts without
common properties, see the `C57_violated` theorems. -/
theorem C57_one_row_per_part_partial (n : Nat) (d : List (F × List (Option V)))
    (hk : (d.map Prod.fst).Nodup) (hl : ∀ p ∈ d, p.2.length = n) :
    ∃ t, multipartTable n (.dict (d.map fun p => (p.1, Col.seq p.2))) = .ok t ∧ t.WF ∧
      t.data.length = n ∧ t.fields = d.map Prod.fst ∧ ∀ p ∈ d, t.getfield p.1 = .ok p.2 := by
  cases d with
  | nil =>
    exact ⟨Table.ofSize [] n, rfl, Table.wf_ofSize n, by simp [Table.ofSize], rfl, by simp⟩
  | cons q rest =>
    obtain ⟨hw, hlen, hg⟩ := zip_rows_cells (q :: rest) n (by simp) hk hl
    refine ⟨Table.ofColumns (q :: rest), ?_, hw, hlen, rfl, hg⟩
    simp only [multipartTable]
    rw [if_neg (by simp), if_neg]
    · congr 1
      simp only [List.map_cons, Table.ofDict]
      congr 2
      rw [List.map_map]
      conv_rhs => rw [← List.map_id rest]
      rfl
    · simp only [List.any_eq_true, not_exists, not_and]
      intro x hx
      obtain ⟨p, hp, rfl⟩ := List.mem_map.1 hx
      simpa [Col.items] using hl p hp

omit [DecidableEq F] in
/-- C57: columns of the wrong length are refused. -/
theorem C57_wrong_length_refused (n : Nat) (d : List (F × List (Option V)))
    (hbad : ∃ p ∈ d, p.2.length ≠ n) :
    multipartTable n (.dict (d.map fun p => (p.1, Col.seq p.2))) = .error .valueError := by
  obtain ⟨p, hp, hpl⟩ := hbad
  simp only [multipartTable]
  rw [if_neg, if_pos]
  · simp only [List.any_eq_true]
    exact ⟨(p.1, Col.seq p.2), List.mem_map.2 ⟨p, hp, rfl⟩, by simpa [Col.items] using hpl⟩
  · intro h
    have : d = [] := by simpa using h
    subst this; simp at hp

/-- C57 is false for parts without a common property: the table has no rows at all, and asking
for any part's attributes raises `IndexError`. -/
theorem C57_violated_parts_without_common_keys :
    (tableFromParts ([[], []] : List (List (String × Option Nat))) []).toOption.map
      (fun t => (t.data.length, t.get 0)) = some (0, .error .indexError) := by decide

/-- C57 is false for a string attribute with as many characters as there are parts (this is
how `read_geojson` classifies such a property): three parts, one row. -/
theorem C57_violated_string_property :
    (multipartTable 3 (.dict [("name", .str (some "abc") [some "a", some "b", some "c"])])).toOption.map
      (fun t => (t.data.length, t.get 1)) = some (1, .error .indexError) := by decide

/-- C57 is false for a ready-made table: its length is not compared with the number of parts. -/
theorem C57_violated_table_argument :
    (multipartTable 3 (.table exTable)).toOption.map (fun t => t.data.length) = some 2 := by decide

example := C57_one_row_per_part_partial 2 [("a", [some 1, none]), ("b", [some 3, some 4])]
  (by decide) (by decide)

/-! ## C58 -/

theorem lookup_dictUpdate {W : Type _} (d own : List (F × W)) (ho : (own.map Prod.fst).Nodup)
    (k : F) : (dictUpdate d own).lookup k = updatedValue d own k := by
  induction own generalizing d with
  | nil => rfl
  | cons kv rest ih =>
    obtain ⟨j, v⟩ := kv
    simp only [List.map_cons, List.nodup_cons] at ho
    have hrest : ∀ k, k ∉ rest.map Prod.fst → rest.lookup k = none := by
      intro k hk
      rw [List.lookup_eq_none_iff]
      intro q hq
      simp only [bne_iff_ne, ne_eq]
      exact fun e => hk (List.mem_map.2 ⟨q, hq, e.symm⟩)
    simp only [dictUpdate, updatedValue, List.lookup_cons]
    split
    · rename_i hmem
      rw [ih _ ho.2]
      simp only [updatedValue]
      by_cases hkj : k = j
      · subst hkj
        rw [hrest k ho.1]
        simp only [BEq.rfl]
        clear ih ho hrest
        induction d with
        | nil => simp at hmem
        | cons p d ihd =>
          obtain ⟨a, b⟩ := p
          by_cases hp : a = k
          · simp [hp]
          · have : (k == a) = false := by simpa using Ne.symm hp
            simp only [List.map_cons, hp, if_false, List.lookup_cons, this]
            exact ihd (by simpa [Ne.symm hp] using hmem)
      · have : (k == j) = false := by simpa using hkj
        rw [this]
        cases rest.lookup k with
        | some w => rfl
        | none =>
          clear ih hmem
          induction d with
          | nil => rfl
          | cons p d ihd =>
            obtain ⟨a, b⟩ := p
            by_cases hp : a = j
            · subst hp
              simp only [List.map_cons, if_true, List.lookup_cons, this]
              simpa using ihd
            · simp only [List.map_cons, hp, if_false, List.lookup_cons]
              cases hkp : (k == a)
              · simpa using ihd
              · rfl
    · rename_i hmem
      rw [ih _ ho.2]
      simp only [updatedValue]
      by_cases hkj : k = j
      · subst hkj
        rw [hrest k ho.1]
        simp only [BEq.rfl]
        rw [List.lookup_append]
        have : d.lookup k = none := by
          rw [List.lookup_eq_none_iff]
          intro q hq
          simp only [bne_iff_ne, ne_eq]
          exact fun e => hmem (List.mem_map.2 ⟨q, hq, e.symm⟩)
        simp [this, List.lookup_cons]
      · have : (k == j) = false := by simpa using hkj
        rw [this]
        cases rest.lookup k with
        | some w => rfl
        | none =>
          simp [List.lookup_append, List.lookup_cons, this]

/-- C58, reading.  The properties of the `i`th part are its row of the table, overridden by the
collection's own properties. -/
theorem C58_part_attributes_partial (t : Table F V) (h : t.WF) (own : List (F × Option V))
    (ho : (own.map Prod.fst).Nodup) (i : Nat) (hi : i < t.data.length) :
    ∃ p, partProperties t own i = .ok p ∧
      ∀ k, p.lookup k = match own.lookup k with
        | some v => some v
        | none => t.cell i k := by
  have hrow : Py.index? t.data (i : Int) = some t.data[i] := by
    simp [Py.index?, hi]
  have hlen : t.data[i].length = t.fields.length := h.rows _ (List.getElem_mem _)
  refine ⟨dictUpdate (t.fields.zip t.data[i]) own, ?_, ?_⟩
  · simp only [partProperties, Table.get, hrow]
    rw [if_neg (by omega)]
  · intro k
    rw [lookup_dictUpdate _ _ ho]
    unfold updatedValue Table.cell
    rw [List.getElem?_eq_getElem hi]
    cases own.lookup k <;> rfl

/-- C58, writing, is false with two attributes when the set of their names is iterated out of
column order: after assigning a point with `a = 7`, `b = 8`, reading back gives `a = 8`. -/
theorem C58_violated_assigned_point :
    (setPoint exTable 0 [("a", some 7), ("b", some 8)] ["b", "a"]).toOption.map
      (fun t => t.cell 0 "a") = some (some (some 8)) := by decide

/-- C58, writing, when the names are iterated in column order: exactly the assigned point's row
changes, to its properties (`None` for the missing ones). -/
theorem C58_assigned_point_partial (t : Table F V) (h : t.WF) (i : Nat) (hi : i < t.data.length)
    (props : List (F × Option V)) :
    ∃ t', setPoint t i props t.fields = .ok t' ∧ t'.WF ∧ t'.fields = t.fields ∧
      t'.data.length = t.data.length ∧
      (∀ f ∈ t.fields, t'.cell i f = some ((props.lookup f).getD none)) ∧
      ∀ (j : Nat) f, j ≠ i → t'.cell j f = t.cell j f := by
  refine ⟨⟨t.fields, t.data.set i (t.fields.map fun f => (props.lookup f).getD none)⟩,
    by rw [setPoint, if_pos (by simpa [Table.len] using hi)], ⟨h.nodup, ?_⟩, rfl,
    by simp, ?_, ?_⟩
  · intro r hr
    rcases List.mem_or_eq_of_mem_set hr with hr | rfl
    · exact h.rows r hr
    · simp
  · intro f hf
    unfold Table.cell
    simp only [List.getElem?_set, hi, if_true, Option.bind_some]
    exact Table.lookup_zip_map _ _ _ hf
  · intro j f hj
    unfold Table.cell
    simp only [List.getElem?_set, Ne.symm hj, if_false]

example := C58_part_attributes_partial exTable exTable_wf [("a", some 100)] (by decide) 1 (by decide)
example := C58_assigned_point_partial exTable exTable_wf 1 (by decide) [("a", some 100)]

/-! ## C59 -/

theorem columnsOf_ok (rows : List (List (Option V))) (fs : List F) (j : Nat)
    (h : ∀ r ∈ rows, j + fs.length ≤ r.length) :
    ∃ d, Table.columnsOf rows fs j = .ok d ∧ d.map Prod.fst = fs ∧
      ∀ (a : Nat) p, d[a]? = some p → p.2.length = rows.length ∧
        ∀ k : Nat, p.2[k]? = (rows[k]?).bind fun r => r[j + a]? := by
  induction fs generalizing j with
  | nil => exact ⟨[], rfl, rfl, by simp⟩
  | cons f fs ih =>
    obtain ⟨c, e, hl, hk⟩ := Table.column_ok j rows (fun r hr => by
      have := h r hr; simp only [List.length_cons] at this; omega)
    obtain ⟨d, e', hd, hr⟩ := ih (j + 1) (fun r hr => by
      have := h r hr; simp only [List.length_cons] at this; omega)
    refine ⟨(f, c) :: d, ?_, by simp [hd], ?_⟩
    · simp only [Table.columnsOf, e, e']
    · intro a p hp
      cases a with
      | zero =>
        simp only [List.getElem?_cons_zero, Option.some.injEq] at hp
        subst hp
        exact ⟨hl, fun k => by simpa using hk k⟩
      | succ a =>
        have := hr a p (by simpa using hp)
        refine ⟨this.1, fun k => ?_⟩
        rw [this.2 k, show j + 1 + a = j + (a + 1) by omega]

/-- C59.  Part `k` of a sliced multipart geometry has the attributes of the part of the original
that the slice selects in `k`th place, whatever the number of attributes. -/
theorem C59_slice_keeps_attributes (t : Table F V) (h : t.WF) (rows : List Nat)
    (hi : ∀ i ∈ rows, i < t.data.length) :
    ∃ t', sliceTable t rows = .ok t' ∧ t'.WF ∧ t'.data.length = rows.length ∧
      ∀ k i : Nat, rows[k]? = some i → ∀ f, t'.cell k f = t.cell i f := by
  have hfm : ∀ rs : List Nat, (∀ i ∈ rs, i < t.data.length) →
      (rs.filterMap fun i => t.data[i]?).length = rs.length ∧
      ∀ k : Nat, (rs.filterMap fun i => t.data[i]?)[k]? = (rs[k]?).bind fun i => t.data[i]? := by
    intro rs
    induction rs with
    | nil => intro _; simp
    | cons r rs ih =>
      intro hr
      obtain ⟨h1, h2⟩ := ih (fun i hi => hr i (by simp [hi]))
      have hr0 := hr r (by simp)
      have hcons : (List.filterMap (fun i => t.data[i]?) (r :: rs))
          = t.data[r] :: List.filterMap (fun i => t.data[i]?) rs := by
        simp [List.filterMap_cons, hr0]
      rw [hcons]
      refine ⟨by simp [h1], fun k => ?_⟩
      cases k with
      | zero => simp [hr0]
      | succ k => simpa using h2 k
  obtain ⟨hlen, hget⟩ := hfm rows hi
  have hrow : ∀ r ∈ rows.filterMap (fun i => t.data[i]?), 0 + t.fields.length ≤ r.length := by
    intro r hr
    obtain ⟨i, _, hir⟩ := List.mem_filterMap.1 hr
    rw [h.row hir]; omega
  obtain ⟨d, e, hd, hp⟩ := columnsOf_ok (rows.filterMap fun i => t.data[i]?) t.fields 0 hrow
  have hd2 : ∀ p ∈ d, p.2.length = rows.length := by
    intro p hpm
    obtain ⟨a, ha⟩ := List.getElem?_of_mem hpm
    rw [(hp a p ha).1, hlen]
  obtain ⟨t', e', w, l, hf, hg⟩ := C57_one_row_per_part_partial rows.length d
    (by rw [hd]; exact h.nodup) hd2
  refine ⟨t', ?_, w, l, ?_⟩
  · simp only [sliceTable, Table.getSlice, e]; exact e'
  · intro k i hk f
    by_cases hft : f ∈ t.fields
    · have hft' : f ∈ t'.fields := by rw [hf, hd]; exact hft
      have hidx := List.idxOf_lt_length_of_mem hft
      have hdl : d.length = t.fields.length := by rw [← hd]; simp
      have hda : d[t.fields.idxOf f]? = some (d[t.fields.idxOf f]'(by omega)) :=
        List.getElem?_eq_getElem _
      have hname : (d[t.fields.idxOf f]'(by omega)).1 = f := by
        have h1 : (d.map Prod.fst)[t.fields.idxOf f]? = some f := by
          rw [hd, List.getElem?_eq_getElem hidx]; simp
        rw [List.getElem?_map, hda] at h1
        simpa using h1
      have hcol := hg _ (List.getElem_mem (l := d) (n := t.fields.idxOf f) (by omega))
      rw [hname] at hcol
      rw [← Table.getfield_col w hft' k, hcol]
      simp only [Except.toOption, Option.getD]
      rw [(hp _ _ hda).2 k, hget, hk, Table.cell_eq h hft]
      simp
    · rw [Table.cell_none hft, Table.cell_none (by rw [hf, hd]; exact hft)]

example := C59_slice_keeps_attributes exTable exTable_wf [1, 0] (by decide)
example : (sliceTable exTable [1, 0]).toOption.map (fun t => t.data)
    = some [[some 3, none], [some 1, some 2]] := by decide

end Karta.Tab
