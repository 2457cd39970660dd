import Verif.Table.History
import Verif.Table.Lemmas

/-!
# C128, C129: tables under every history of changes
-/

namespace Karta.Tab
open Karta

variable {F V : Type _} [DecidableEq F]

/-! ### Specification of the queries on a list of records -/

/-- What a query of a list of records should return: the values of a field, the record at a place, the records at the places of a
slice field by field. -/
def Records.answer (r : Records F V) : Table.IKey F → Except Err (Table.Answer F V)
  | .str f => if f ∈ r.fields then .ok (.column (r.rows.map fun d => d f)) else .error .keyError
  | .int i =>
    match Py.index? r.rows i with
    | none => .error .indexError
    | some d => .ok (.record (r.fields.map fun f => (f, d f)))
  | .slice s =>
    match s.indices r.rows.length with
    | .error e => .error e
    | .ok (a, b, c) => .ok (.columns (r.fields.map fun f =>
        (f, ((Py.range a b c).filterMap fun k => r.rows[k.toNat]?).map fun d => d f)))
  | .other => .error .keyError

/-! ### Lemmas -/

/-- The table stores exactly the records. -/
structure Rep (t : Table F V) (r : Records F V) : Prop where
  fields : t.fields = r.fields
  nodup : r.fields.Nodup
  data : t.data = r.rows.map fun d => r.fields.map d

theorem Rep.len {t : Table F V} {r : Records F V} (h : Rep t r) : t.data.length = r.rows.length := by
  rw [h.data, List.length_map]

theorem Rep.wf {t : Table F V} {r : Records F V} (h : Rep t r) : t.WF := by
  refine ⟨by rw [h.fields]; exact h.nodup, ?_⟩
  intro row hr
  rw [h.data, List.mem_map] at hr
  obtain ⟨d, _, rfl⟩ := hr
  rw [h.fields, List.length_map]

theorem ofValues_map (fields : List F) (row : List (Option V)) (hn : fields.Nodup) (hl : row.length = fields.length) :
    fields.map (Records.ofValues fields row) = row := by
  apply List.ext_getElem?
  intro k
  rw [List.getElem?_map]
  by_cases hk : k < fields.length
  · rw [List.getElem?_eq_getElem hk, Option.map_some]
    unfold Records.ofValues
    rw [lookup_zip _ _ _ hl (List.getElem_mem hk), hn.idxOf_getElem k hk, List.getElem?_eq_getElem (by omega)]
    rfl
  · rw [List.getElem?_eq_none (by omega), List.getElem?_eq_none (by omega)]; rfl

theorem Rep.ofTable {t : Table F V} (h : t.WF) : Rep t (Records.ofTable t) := by
  refine ⟨rfl, h.nodup, ?_⟩
  apply List.ext_getElem?
  intro k
  simp only [Records.ofTable, List.map_map, List.getElem?_map]
  by_cases hk : k < t.data.length
  · rw [List.getElem?_eq_getElem hk, List.getElem?_range hk, Option.map_some]
    simp only [Function.comp]
    have hrow : t.data[k].length = t.fields.length := h.rows _ (List.getElem_mem hk)
    have := ofValues_map t.fields t.data[k] h.nodup hrow
    congr 1
    rw [← this]
    apply List.map_congr_left
    intro f _
    unfold Records.ofValues Table.cell
    rw [List.getElem?_eq_getElem hk]
    rfl
  · rw [List.getElem?_eq_none (by omega), List.getElem?_eq_none (by simp; omega)]; rfl

theorem set_idxOf_map (fields : List F) (d : F → Option V) (f : F) (v : Option V) (hn : fields.Nodup) :
    (fields.map d).set (fields.idxOf f) v = fields.map fun g => if g = f then v else d g := by
  induction fields with
  | nil => rfl
  | cons a fs ih =>
    rw [List.nodup_cons] at hn
    by_cases ha : a = f
    · subst ha
      rw [List.idxOf_cons_self, List.map_cons, List.set_cons_zero, List.map_cons, if_pos rfl]
      congr 1
      apply List.map_congr_left
      intro g hg
      rw [if_neg (fun e : g = a => hn.1 (e ▸ hg))]
    · rw [List.idxOf_cons_ne _ ha, List.map_cons, Nat.succ_eq_add_one, List.set_cons_succ, ih hn.2, List.map_cons, if_neg ha]

theorem zip_map_left' {A B C D : Type _} (f : A → B) (g : B × C → D) (l : List A) (m : List C) :
    ((l.map f).zip m).map g = (l.zip m).map fun p => g (f p.1, p.2) := by
  induction l generalizing m with
  | nil => simp
  | cons a l ih =>
    cases m with
    | nil => simp
    | cons c m => simp [ih]

theorem eraseIdx_map' {A B : Type _} (f : A → B) (l : List A) (k : Nat) : (l.map f).eraseIdx k = (l.eraseIdx k).map f := by
  induction l generalizing k with
  | nil => simp
  | cons a l ih => cases k <;> simp [ih]

theorem normIndex_isSome_lt {n : Nat} {i : Int} {k : Nat} (h : Py.normIndex n i = some k) : k < n := by
  unfold Py.normIndex at h
  by_cases h0 : 0 ≤ i
  · rw [if_pos h0] at h
    by_cases h1 : i < n
    · rw [if_pos h1] at h; cases h; omega
    · rw [if_neg h1] at h; exact absurd h (by simp)
  · rw [if_neg h0] at h
    by_cases h1 : 0 ≤ i + n
    · rw [if_pos h1] at h; cases h; omega
    · rw [if_neg h1] at h; exact absurd h (by simp)

theorem Rep.apply {t : Table F V} {r : Records F V} (h : Rep t r) (op : Table.Op F V) (hop : r.Legal op) :
    ∃ t', t.apply op = .ok t' ∧ Rep t' (r.step op) := by
  cases op with
  | set f vs =>
    obtain ⟨hl, hne⟩ := hop
    have hlen : t.len = r.rows.length := h.len
    have h0 : t.len ≠ 0 := by
      rw [hlen]; intro e; exact hne (List.length_eq_zero_iff.mp e)
    show ∃ t', t.setfield f vs = .ok t' ∧ _
    unfold Table.setfield
    rw [if_neg (by rintro ⟨_, e⟩; exact e (by rw [hl, hlen])), if_neg h0]
    by_cases hf : f ∈ t.fields
    · rw [if_pos hf, Table.mutAll_ok _ _ _ (fun row hrow => by
        rw [h.wf.rows row hrow]; exact List.idxOf_lt_length_of_mem hf) (by rw [hl]; exact h.len.symm)]
      refine ⟨_, rfl, ?_, ?_, ?_⟩
      · show t.fields = if f ∈ r.fields then r.fields else r.fields ++ [f]
        rw [h.fields] at hf ⊢; rw [if_pos hf]
      · show (if f ∈ r.fields then r.fields else r.fields ++ [f]).Nodup
        rw [h.fields] at hf; rw [if_pos hf]; exact h.nodup
      · show (t.data.zip vs).map (fun p => p.1.set (t.fields.idxOf f) p.2) = _
        rw [h.fields] at hf
        rw [h.data, zip_map_left', h.fields]
        simp only [Records.step, List.map_map, if_pos hf]
        apply List.map_congr_left
        intro p _
        exact set_idxOf_map _ _ _ _ h.nodup
    · rw [if_neg hf]
      refine ⟨_, rfl, ?_, ?_, ?_⟩
      · show Table.tupleinsert t.fields f t.fields.length = if f ∈ r.fields then r.fields else r.fields ++ [f]
        rw [Table.tupleinsert_end _ _ _ rfl, ← h.fields, if_neg hf]
      · show (if f ∈ r.fields then r.fields else r.fields ++ [f]).Nodup
        rw [h.fields] at hf; rw [if_neg hf, List.nodup_append]
        refine ⟨h.nodup, by simp, ?_⟩
        intro a ha b hb
        simp only [List.mem_singleton] at hb
        subst hb; intro e; exact hf (e ▸ ha)
      · show (t.data.zip vs).map (fun p => Table.tupleinsert p.1 p.2 t.fields.length) = _
        rw [h.fields] at hf
        rw [h.data, zip_map_left', h.fields]
        simp only [Records.step, List.map_map, if_neg hf]
        apply List.map_congr_left
        intro p _
        show Table.tupleinsert (r.fields.map p.1) p.2 r.fields.length = _
        show _ = (r.fields ++ [f]).map fun g => if g = f then p.2 else p.1 g
        rw [Table.tupleinsert_end _ _ _ (List.length_map _), List.map_append]
        congr 1
        · apply List.map_congr_left
          intro g hg
          show _ = if g = f then p.2 else p.1 g
          rw [if_neg (fun e : g = f => hf (e ▸ hg))]
        · simp
  | extend o =>
    have ho : o.WF := hop
    refine ⟨_, Table.extend_eq ho, h.fields, h.nodup, ?_⟩
    show t.data ++ o.data.map _ = _
    have e : (r.step (.extend o)).rows = r.rows ++ (Records.ofTable o).rows := rfl
    have ef : (r.step (.extend o)).fields = r.fields := rfl
    rw [e, ef, List.map_append, ← h.data]
    congr 1
    rw [h.fields]
    apply List.ext_getElem?
    intro k
    simp only [Records.ofTable, List.map_map, List.getElem?_map]
    by_cases hk : k < o.data.length
    · rw [List.getElem?_eq_getElem hk, List.getElem?_range hk, Option.map_some, Option.map_some]
      congr 1
      apply List.map_congr_left
      intro f _
      show _ = (o.cell k f).join
      unfold Table.cell
      rw [List.getElem?_eq_getElem hk, Option.bind_some]
      cases (o.fields.zip o.data[k]).lookup f with
      | none => rfl
      | some v => rfl
    · rw [List.getElem?_eq_none (by omega), List.getElem?_eq_none (by simp; omega)]; rfl
  | assign i row =>
    obtain ⟨hi, hl⟩ := hop
    obtain ⟨k, hk⟩ := Option.isSome_iff_exists.mp hi
    refine ⟨⟨t.fields, t.data.set k row⟩, ?_, ?_, ?_, ?_⟩
    · show t.setItem i row = _
      unfold Table.setItem; rw [h.len, hk]
    · simp only [Records.step, hk]; exact h.fields
    · simp only [Records.step, hk]; exact h.nodup
    · simp only [Records.step, hk]
      rw [List.map_set, ofValues_map _ _ h.nodup hl, ← h.data]
  | delete i =>
    obtain ⟨k, hk⟩ := Option.isSome_iff_exists.mp hop
    refine ⟨⟨t.fields, t.data.eraseIdx k⟩, ?_, ?_, ?_, ?_⟩
    · show t.delItem i = _
      unfold Table.delItem; rw [h.len, hk]
    · simp only [Records.step, hk]; exact h.fields
    · simp only [Records.step, hk]; exact h.nodup
    · simp only [Records.step, hk]
      rw [h.data, eraseIdx_map']

theorem Rep.run {ops : List (Table.Op F V)} : ∀ {t : Table F V} {r : Records F V}, Rep t r → r.LegalRun ops →
    ∃ t', Table.run ops t = .ok t' ∧ Rep t' (r.run ops) := by
  induction ops with
  | nil => intro t r h _; exact ⟨t, rfl, h⟩
  | cons op ops ih =>
    intro t r h hl
    obtain ⟨t1, e1, h1⟩ := h.apply op hl.1
    obtain ⟨t2, e2, h2⟩ := ih h1 hl.2
    refine ⟨t2, ?_, h2⟩
    unfold Table.run; rw [e1]; exact e2

theorem column_map (fields : List F) (rows : List (F → Option V)) (j : Nat) (f : F) (hj : fields[j]? = some f) :
    Table.column j (rows.map fun d => fields.map d) = .ok (rows.map fun d => d f) := by
  induction rows with
  | nil => rfl
  | cons d ds ih =>
    rw [List.map_cons, Table.column, List.getElem?_map, hj, Option.map_some]
    dsimp only
    rw [ih]; rfl

theorem columnsOf_map (rows : List (F → Option V)) (pre fs : List F) :
    Table.columnsOf (rows.map fun d => (pre ++ fs).map d) fs pre.length = .ok (fs.map fun f => (f, rows.map fun d => d f)) := by
  induction fs generalizing pre with
  | nil => rfl
  | cons f fs ih =>
    rw [Table.columnsOf, column_map _ _ _ f (by simp)]
    dsimp only
    have := ih (pre ++ [f])
    rw [List.append_assoc, List.length_append] at this
    simp only [List.singleton_append, List.length_singleton] at this
    rw [this]; rfl

theorem index?_map {A B : Type _} (f : A → B) (l : List A) (i : Int) : Py.index? (l.map f) i = (Py.index? l i).map f := by
  unfold Py.index?
  rw [List.length_map]
  by_cases h0 : 0 ≤ i
  · rw [if_pos h0, if_pos h0, List.getElem?_map]
  · rw [if_neg h0, if_neg h0]
    by_cases h1 : 0 ≤ i + l.length
    · rw [if_pos h1, if_pos h1, List.getElem?_map]
    · rw [if_neg h1, if_neg h1]; rfl

theorem zip_self_map {A B : Type _} (l : List A) (f : A → B) : l.zip (l.map f) = l.map fun a => (a, f a) := by
  induction l with
  | nil => rfl
  | cons a l ih => simp [ih]

theorem Rep.index {t : Table F V} {r : Records F V} (h : Rep t r) (k : Table.IKey F) : t.index k = r.answer k := by
  cases k with
  | str f =>
    unfold Table.index Records.answer Table.getfield
    dsimp only
    rw [h.fields]
    by_cases hf : f ∈ r.fields
    · rw [if_pos hf, if_pos hf, h.data, column_map r.fields r.rows _ f (by
        rw [List.getElem?_eq_getElem (List.idxOf_lt_length_of_mem hf), List.getElem_idxOf])]
      rfl
    · rw [if_neg hf, if_neg hf]; rfl
  | int i =>
    unfold Table.index Records.answer Table.get
    dsimp only
    rw [h.data, index?_map, h.fields]
    cases Py.index? r.rows i with
    | none => rfl
    | some d =>
      dsimp only [Option.map_some]
      rw [if_neg (by simp), zip_self_map]; rfl
  | slice s =>
    unfold Table.index Records.answer Table.sliceRows
    dsimp only
    rw [h.len]
    cases s.indices r.rows.length with
    | error e => rfl
    | ok p =>
      obtain ⟨a, b, c⟩ := p
      dsimp only
      unfold Table.getSlice
      have e : (((Py.range a b c).map Int.toNat).filterMap fun i => t.data[i]?)
          = ((Py.range a b c).filterMap fun k => r.rows[k.toNat]?).map fun d => r.fields.map d := by
        rw [h.data, List.filterMap_map, List.map_filterMap]
        apply List.filterMap_congr
        intro k _
        simp only [Function.comp, List.getElem?_map]
      rw [e, h.fields]
      have := columnsOf_map ((Py.range a b c).filterMap fun k => r.rows[k.toNat]?) [] r.fields
      simp only [List.nil_append, List.length_nil] at this
      rw [this]; rfl
  | other => rfl

/-! ### C128 -/

/-- C128.  After every history of column assignments, extensions, row assignments and deletions that make sense when they are made, the
table behaves as the list of records to which the same changes were made: same length, and the same answer to every query by name, by
number, by slice or by anything else. -/
theorem C128_history_partial (t : Table F V) (h : t.WF) (ops : List (Table.Op F V)) (hl : (Records.ofTable t).LegalRun ops) :
    ∃ t', Table.run ops t = .ok t' ∧ t'.data.length = ((Records.ofTable t).run ops).rows.length ∧
      (∀ k, Table.indexer (some t') k = ((Records.ofTable t).run ops).answer k) ∧
      ∀ i, t'.item i = match Py.index? ((Records.ofTable t).run ops).rows i with
        | none => .error .indexError
        | some d => .ok (((Records.ofTable t).run ops).fields.map d) := by
  obtain ⟨t', e, hr⟩ := (Rep.ofTable h).run hl
  refine ⟨t', e, hr.len, fun k => hr.index k, ?_⟩
  intro i
  unfold Table.item
  rw [hr.data, index?_map]
  cases Py.index? ((Records.ofTable t).run ops).rows i <;> rfl

/-- C128.  A column of another length is refused, and so are changes of rows that do not exist. -/
theorem C128_refused (t : Table F V) (f : F) (vs row : List (Option V)) (i : Int) :
    (t.data ≠ [] → vs.length ≠ t.data.length → t.apply (.set f vs) = .error .valueError) ∧
    (i < -(t.data.length : Int) ∨ (t.data.length : Int) ≤ i →
      t.apply (.assign i row) = .error .indexError ∧ t.apply (.delete i) = .error .indexError) := by
  constructor
  · intro hne hl
    show t.setfield f vs = _
    unfold Table.setfield
    rw [if_pos ⟨fun e => hne (List.length_eq_zero_iff.mp e), hl⟩]
  · intro hi
    have : Py.normIndex t.data.length i = none := by
      unfold Py.normIndex
      by_cases h0 : 0 ≤ i
      · rw [if_pos h0, if_neg (by omega)]
      · rw [if_neg h0, if_neg (by omega)]
    constructor
    · show t.setItem i row = _
      unfold Table.setItem; rw [this]
    · show t.delItem i = _
      unfold Table.delItem; rw [this]

/-- C128.  A geometry without a table cannot be queried. -/
theorem C128_no_table (k : Table.IKey F) : Table.indexer (none : Option (Table F V)) k = .error .keyError := rfl

/-- C128, violated: when the last row is deleted and a column is added, the other fields are forgotten, so that a row extended with
values for them does not keep them. -/
theorem C128_violated_emptied :
    (Table.run [.delete 0, .set "b" [], .extend ⟨["a", "b"], [[some 5, some 6]]⟩] (⟨["a", "b"], [[some 1, some 2]]⟩ : Table String Nat)).toOption.map
      (fun t => (t.fields, t.data)) = some (["b"], [[some 6]]) := by decide

/-- C128, violated: a row with too few values is stored, after which the table cannot be queried. -/
theorem C128_violated_short_row (t : Table F V) (h : t.WF) (i : Int) (hi : (Py.normIndex t.data.length i).isSome) (f : F) (hf : f ∈ t.fields) :
    ∃ t', t.apply (.assign i []) = .ok t' ∧ t'.getfield f = .error .indexError := by
  obtain ⟨k, hk⟩ := Option.isSome_iff_exists.mp hi
  refine ⟨⟨t.fields, t.data.set k []⟩, ?_, ?_⟩
  · show t.setItem i [] = _
    unfold Table.setItem; rw [hk]
  · unfold Table.getfield
    rw [if_pos hf]
    have hlt : k < t.data.length := normIndex_isSome_lt hk
    have hrows := h.rows
    have hj := List.idxOf_lt_length_of_mem hf
    generalize t.fields.idxOf f = j at hj
    clear hf hi hk
    revert k
    show ∀ k, k < t.data.length → Table.column j (t.data.set k []) = .error .indexError
    generalize t.data = rows at hrows
    induction rows with
    | nil => intro k hk; simp at hk
    | cons r rs ih =>
      intro k hk
      cases k with
      | zero => rw [List.set_cons_zero, Table.column, List.getElem?_nil]
      | succ k =>
        rw [List.set_cons_succ, Table.column, List.getElem?_eq_getElem (by rw [hrows r (by simp)]; exact hj)]
        dsimp only
        rw [ih (fun r hr => hrows r (by simp [hr])) k (by simpa using hk)]

example : (Records.ofTable (⟨["a", "b"], [[some 1, some 2], [some 3, none]]⟩ : Table String Nat)).LegalRun
    [.set "c" [some 7, some 8], .delete (-2), .extend ⟨["c", "a"], [[some 0, some 9]]⟩, .assign 0 [some 4, some 5, none], .set "a" [some 1, some 2]] := by
  refine ⟨⟨rfl, List.cons_ne_nil _ _⟩, rfl, ⟨by decide, by decide⟩, ⟨rfl, rfl⟩, ⟨rfl, List.cons_ne_nil _ _⟩, trivial⟩

example : (Table.run [.set "c" [some 7, some 8], .delete (-2), .extend ⟨["c", "a"], [[some 0, some 9]]⟩, .assign 0 [some 4, some 5, none]]
    (⟨["a", "b"], [[some 1, some 2], [some 3, none]]⟩ : Table String Nat)).toOption.map (fun t => (t.fields, t.data)) =
    some (["a", "b", "c"], [[some 4, some 5, none], [some 9, none, some 0]]) := by decide

/-! ### C129 -/

/-- C129, violated: with `checktypes=True` every table with a row and a field is refused, also where all values of each field are of
one type, unless the values are classes. -/
theorem C129_violated_always (isClass inst : Option V → Bool) (t : Table F V) (r : List (Option V)) (rs : List (List (Option V)))
    (hd : t.data = r :: rs) (v : Option V) (vs : List (Option V)) (hr : r = v :: vs) (hv : isClass v = false) :
    t.validateTypes isClass inst = .error .typeError := by
  unfold Table.validateTypes
  rw [hd, hr]
  show Table.checkFrom isClass inst _ 0 (vs.length + 1) = _
  rw [Table.checkFrom, Table.checkColumn, List.getElem?_cons_zero]
  dsimp only
  rw [hv]; rfl

/-- C129, violated: a table without rows raises IndexError. -/
theorem C129_violated_empty (isClass inst : Option V → Bool) (t : Table F V) (hd : t.data = []) :
    t.validateTypes isClass inst = .error .indexError := by
  unfold Table.validateTypes; rw [hd]

/-- C129, the part that holds: tables whose rows have no values are accepted. -/
theorem C129_no_values_partial (isClass inst : Option V → Bool) (t : Table F V) (rs : List (List (Option V))) (hd : t.data = [] :: rs) :
    t.validateTypes isClass inst = .ok () := by
  unfold Table.validateTypes; rw [hd]; rfl

example : (⟨["a"], [[some 1], [some 2]]⟩ : Table String Nat).validateTypes (fun _ => false) (fun _ => true) = .error .typeError :=
  C129_violated_always _ _ _ _ _ rfl _ _ rfl rfl

end Karta.Tab
