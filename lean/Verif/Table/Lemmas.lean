import Verif.Table.Spec
import Mathlib.Data.List.Basic
import Mathlib.Data.List.Nodup
import Mathlib.Tactic.SplitIfs

namespace Karta.Tab
open Karta
variable {F V : Type _} [DecidableEq F]

theorem lookup_zip {W : Type _} (fs : List F) (row : List W) (f : F) (h : row.length = fs.length)
    (hf : f ∈ fs) : (fs.zip row).lookup f = row[fs.idxOf f]? := by
  induction fs generalizing row with
  | nil => simp at hf
  | cons g fs ih =>
    cases row with
    | nil => simp at h
    | cons v row =>
      simp only [List.zip_cons_cons, List.lookup_cons]
      by_cases e : f = g
      · subst e; simp
      · have : (f == g) = false := by simpa using e
        rw [this]
        rw [List.idxOf_cons_ne _ (Ne.symm e)]
        simpa using ih row (by simpa using h) (by simpa [e] using hf)

theorem lookup_zip_none {W : Type _} (fs : List F) (row : List W) (f : F)
    (hf : f ∉ fs) : (fs.zip row).lookup f = none := by
  induction fs generalizing row with
  | nil => simp
  | cons g fs ih =>
    cases row with
    | nil => simp
    | cons v row =>
      simp only [List.mem_cons, not_or] at hf
      simp only [List.zip_cons_cons, List.lookup_cons]
      have : (f == g) = false := by simpa using hf.1
      rw [this]
      exact ih row hf.2

namespace Table

theorem WF.row {t : Table F V} (h : t.WF) {i : Nat} {r : List (Option V)} (hr : t.data[i]? = some r) :
    r.length = t.fields.length := h.rows r (List.mem_of_getElem? hr)

theorem cell_eq {t : Table F V} (h : t.WF) {f : F} (hf : f ∈ t.fields) (i : Nat) :
    t.cell i f = (t.data[i]?).bind fun r => r[t.fields.idxOf f]? := by
  unfold cell
  cases hr : t.data[i]? with
  | none => rfl
  | some r => simp only [Option.bind_some]; exact lookup_zip _ _ _ (h.row hr) hf

theorem column_ok (i : Nat) (rows : List (List (Option V))) (h : ∀ r ∈ rows, i < r.length) :
    ∃ c, column i rows = .ok c ∧ c.length = rows.length ∧
      ∀ k : Nat, c[k]? = (rows[k]?).bind fun r => r[i]? := by
  induction rows with
  | nil => exact ⟨[], rfl, rfl, by simp⟩
  | cons r rs ih =>
    obtain ⟨c, e, hl, hk⟩ := ih (fun r hr => h r (by simp [hr]))
    have hr : i < r.length := h r (by simp)
    refine ⟨r[i] :: c, ?_, by simp [hl], ?_⟩
    · simp only [column, List.getElem?_eq_getElem hr, e]
    · intro k
      cases k with
      | zero => simp [hr]
      | succ k => simpa using hk k

theorem getfield_spec {t : Table F V} (h : t.WF) {f : F} (hf : f ∈ t.fields) :
    ∃ c, t.getfield f = .ok c ∧ c.length = t.len ∧ ∀ i : Nat, c[i]? = t.cell i f := by
  obtain ⟨c, e, hl, hk⟩ := column_ok (t.fields.idxOf f) t.data (fun r hr => by
    rw [h.rows r hr]; exact List.idxOf_lt_length_of_mem hf)
  refine ⟨c, by rw [getfield, if_pos hf, e], hl, fun i => ?_⟩
  rw [hk, cell_eq h hf]

theorem mutAll_ok (i : Nat) (rows : List (List (Option V))) (vals : List (Option V))
    (h : ∀ r ∈ rows, i < r.length) (hl : vals.length = rows.length) :
    mutAll i (rows.zip vals) = .ok ((rows.zip vals).map fun p => p.1.set i p.2) := by
  induction rows generalizing vals with
  | nil => simp [mutAll]
  | cons r rs ih =>
    cases vals with
    | nil => simp at hl
    | cons v vs =>
      have hr : i < r.length := h r (by simp)
      simp only [List.zip_cons_cons, mutAll, tuplemut, if_pos hr]
      rw [ih vs (fun r hr => h r (by simp [hr])) (by simpa using hl)]
      rfl

theorem zip_get {A B : Type _} (xs : List A) (ys : List B) (h : ys.length = xs.length) (i : Nat) :
    (xs.zip ys)[i]? = (xs[i]?).bind fun a => (ys[i]?).map fun b => (a, b) := by
  by_cases hi : i < xs.length
  · have hi' : i < ys.length := by omega
    rw [List.getElem?_eq_getElem (by simp; omega)]
    simp [hi, hi']
  · rw [List.getElem?_eq_none (by simp; omega), List.getElem?_eq_none (by omega)]
    rfl

theorem tupleinsert_end {A : Type _} (l : List A) (v : A) (n : Nat) (hn : l.length = n) :
    tupleinsert l v n = l ++ [v] := by
  subst hn; simp [tupleinsert]

theorem setfield_spec {t : Table F V} (h : t.WF) (hne : t.len ≠ 0) (f : F)
    (vals : List (Option V)) (hl : vals.length = t.len) :
    ∃ t', t.setfield f vals = .ok t' ∧ t'.WF ∧ t'.len = t.len ∧
      (∀ g, g ∈ t'.fields ↔ g = f ∨ g ∈ t.fields) ∧
      (∀ i : Nat, t'.cell i f = vals[i]?) ∧
      (∀ (i : Nat) g, g ≠ f → t'.cell i g = t.cell i g) := by
  unfold setfield
  rw [if_neg (by omega), if_neg hne]
  have hl' : vals.length = t.data.length := hl
  by_cases hf : f ∈ t.fields
  · rw [if_pos hf]
    have hidx := List.idxOf_lt_length_of_mem hf
    rw [mutAll_ok _ _ _ (fun r hr => by rw [h.rows r hr]; exact hidx) hl']
    have hwf : (⟨t.fields, (t.data.zip vals).map fun p => p.1.set (t.fields.idxOf f) p.2⟩ :
        Table F V).WF := by
      refine ⟨h.nodup, ?_⟩
      intro r hr
      simp only [List.mem_map] at hr
      obtain ⟨⟨r', v⟩, hp, rfl⟩ := hr
      simpa using h.rows r' (List.of_mem_zip hp).1
    refine ⟨_, rfl, hwf, ?_, ?_, ?_, ?_⟩
    · simp only [len, List.length_map, List.length_zip]; omega
    · intro g; constructor
      · intro hg; exact Or.inr hg
      · rintro (rfl | hg)
        · exact hf
        · exact hg
    · intro i
      rw [cell_eq hwf hf]
      simp only [List.getElem?_map, zip_get _ _ hl']
      by_cases hi : i < t.data.length
      · have hi' : i < vals.length := by omega
        have hr : t.data[i].length = t.fields.length := h.rows _ (List.getElem_mem _)
        simp [hi, hi', hr, hidx]
      · rw [List.getElem?_eq_none (by omega), List.getElem?_eq_none (by omega)]
        rfl
    · intro i g hg
      by_cases hgf : g ∈ t.fields
      · rw [cell_eq hwf hgf, cell_eq h hgf]
        have hne' : t.fields.idxOf f ≠ t.fields.idxOf g := by
          intro e
          have := (List.idxOf_inj (y := g) hf).1 e
          exact hg this.symm
        simp only [List.getElem?_map, zip_get _ _ hl']
        by_cases hi : i < t.data.length
        · have hi' : i < vals.length := by omega
          simp [hi, hi', hne']
        · rw [List.getElem?_eq_none (by omega)]
          rfl
      · unfold cell
        have key : ∀ o : Option (List (Option V)),
            (o.bind fun row => (t.fields.zip row).lookup g) = none := by
          intro o; cases o with
          | none => rfl
          | some r => exact lookup_zip_none _ _ _ hgf
        rw [key, key]
  · rw [if_neg hf]
    have hrows : ((t.data.zip vals).map fun p => tupleinsert p.1 p.2 t.fields.length)
        = (t.data.zip vals).map fun p => p.1 ++ [p.2] := by
      apply List.map_congr_left
      rintro ⟨r, v⟩ hp
      exact tupleinsert_end _ _ _ (h.rows r (List.of_mem_zip hp).1)
    rw [tupleinsert_end _ _ _ rfl, hrows]
    have hwf : (⟨t.fields ++ [f], (t.data.zip vals).map fun p => p.1 ++ [p.2]⟩ :
        Table F V).WF := by
      refine ⟨?_, ?_⟩
      · rw [List.nodup_append]
        refine ⟨h.nodup, by simp, ?_⟩
        intro a ha b hb
        simp at hb; subst hb
        rintro rfl; exact hf ha
      · intro r hr
        simp only [List.mem_map] at hr
        obtain ⟨⟨r', v⟩, hp, rfl⟩ := hr
        simpa using h.rows r' (List.of_mem_zip hp).1
    refine ⟨_, rfl, hwf, ?_, ?_, ?_, ?_⟩
    · simp only [len, List.length_map, List.length_zip]; omega
    · intro g; simp only [List.mem_append, List.mem_singleton]; tauto
    · intro i
      rw [cell_eq hwf (by simp)]
      simp only [List.getElem?_map, zip_get _ _ hl']
      by_cases hi : i < t.data.length
      · have hi' : i < vals.length := by omega
        have hr : t.data[i].length = t.fields.length := h.rows _ (List.getElem_mem _)
        have : List.idxOf f (t.fields ++ [f]) = t.fields.length := by
          rw [List.idxOf_append_of_notMem hf]; simp
        simp [hi, hi', this, ← hr]
      · rw [List.getElem?_eq_none (by omega), List.getElem?_eq_none (by omega)]
        rfl
    · intro i g hg
      by_cases hgf : g ∈ t.fields
      · rw [cell_eq hwf (by simp [hgf]), cell_eq h hgf]
        simp only [List.getElem?_map, zip_get _ _ hl']
        by_cases hi : i < t.data.length
        · have hi' : i < vals.length := by omega
          have hr : t.data[i].length = t.fields.length := h.rows _ (List.getElem_mem _)
          have hidx := List.idxOf_lt_length_of_mem hgf
          rw [List.idxOf_append_of_mem hgf]
          simp [hi, hi']
          rw [List.getElem?_append_left (by omega)]
        · rw [List.getElem?_eq_none (by omega)]
          rfl
      · unfold cell
        have key : ∀ (fs : List F) (o : Option (List (Option V))), g ∉ fs →
            (o.bind fun row => (fs.zip row).lookup g) = none := by
          intro fs o hgf; cases o with
          | none => rfl
          | some r => exact lookup_zip_none _ _ _ hgf
        rw [key _ _ hgf, key _ _ (by simp [hgf, hg])]

theorem extendRow_ok (sf of' : List F) (row : List (Option V)) (h : row.length = of'.length) :
    extendRow sf of' row = .ok (sf.map fun f => ((of'.zip row).lookup f).getD none) := by
  induction sf with
  | nil => rfl
  | cons f fs ih =>
    simp only [extendRow, ih, List.map_cons]
    by_cases hf : f ∈ of'
    · rw [if_pos hf, lookup_zip _ _ _ h hf]
      have := List.idxOf_lt_length_of_mem hf
      rw [List.getElem?_eq_getElem (by omega)]
      rfl
    · rw [if_neg hf, lookup_zip_none _ _ _ hf]; rfl

theorem extendRows_ok (sf of' : List F) (rows : List (List (Option V)))
    (h : ∀ r ∈ rows, r.length = of'.length) :
    extendRows sf of' rows =
      .ok (rows.map fun row => sf.map fun f => ((of'.zip row).lookup f).getD none) := by
  induction rows with
  | nil => rfl
  | cons r rs ih =>
    simp only [extendRows, extendRow_ok sf of' r (h r (by simp)),
      ih (fun r hr => h r (by simp [hr])), List.map_cons]

theorem extend_eq {t o : Table F V} (ho : o.WF) :
    t.extend o = .ok ⟨t.fields, t.data ++ o.data.map fun row =>
      t.fields.map fun f => ((o.fields.zip row).lookup f).getD none⟩ := by
  rw [extend, extendRows_ok _ _ _ ho.rows]

theorem lookup_zip_map {W : Type _} (fs : List F) (g : F → W) (f : F) (hf : f ∈ fs) :
    (fs.zip (fs.map g)).lookup f = some (g f) := by
  rw [lookup_zip _ _ _ (by simp) hf]
  have := List.idxOf_lt_length_of_mem hf
  simp [this]

theorem extend_spec {t o : Table F V} (h : t.WF) (ho : o.WF) :
    ∃ t', t.extend o = .ok t' ∧ t'.WF ∧ t'.fields = t.fields ∧ t'.len = t.len + o.len ∧
      (∀ i f, i < t.len → t'.cell i f = t.cell i f) ∧
      (∀ i f, i < o.len → f ∈ t.fields →
        t'.cell (t.len + i) f = some ((o.cell i f).getD none)) := by
  refine ⟨_, extend_eq ho, ⟨h.nodup, ?_⟩, rfl, by simp [len], ?_, ?_⟩
  · intro r hr
    simp only [List.mem_append, List.mem_map] at hr
    rcases hr with hr | ⟨r', _, rfl⟩
    · exact h.rows r hr
    · simp
  · intro i f hi
    unfold cell
    simp only [len] at hi
    rw [List.getElem?_append_left hi]
  · intro i f hi hf
    unfold cell
    simp only [len] at hi
    simp only [len]
    rw [List.getElem?_append_right (by omega)]
    simp only [Nat.add_sub_cancel_left, List.getElem?_map, List.getElem?_eq_getElem hi,
      Option.map_some, Option.bind_some]
    rw [lookup_zip_map _ _ _ hf]

theorem setFromDict_spec (m n : Nat) (hm : m = 0 ∨ m = n) (hn : n ≠ 0) (items : List (F × List (Option V)))
    (hk : (items.map Prod.fst).Nodup) (hl : ∀ p ∈ items, p.2.length = n)
    (nt : Table F V) (h : nt.WF) (hlen : nt.len = n) :
    ∃ t', setFromDict m items nt = .ok t' ∧ t'.WF ∧ t'.len = n ∧
      (∀ g, g ∈ t'.fields ↔ g ∈ items.map Prod.fst ∨ g ∈ nt.fields) ∧
      (∀ (i : Nat) g, t'.cell i g = match items.lookup g with
        | some vs => vs[i]?
        | none => nt.cell i g) := by
  induction items generalizing nt with
  | nil => exact ⟨nt, rfl, h, hlen, by simp, by simp⟩
  | cons p rest ih =>
    obtain ⟨f, vs⟩ := p
    have hv : vs.length = n := hl (f, vs) (by simp)
    obtain ⟨t1, e1, w1, l1, f1, c1, o1⟩ := setfield_spec h (by omega) f vs (by omega)
    simp only [List.map_cons, List.nodup_cons] at hk
    obtain ⟨t2, e2, w2, l2, f2, c2⟩ := ih hk.2 (fun p hp => hl p (by simp [hp])) t1 w1 (by omega)
    refine ⟨t2, ?_, w2, l2, ?_, ?_⟩
    · simp only [setFromDict]
      rw [if_neg (by omega), e1]
      exact e2
    · intro g
      rw [f2, f1]
      simp only [List.map_cons, List.mem_cons]
      tauto
    · intro i g
      rw [c2, List.lookup_cons]
      by_cases hg : g = f
      · subst hg
        have hnone : rest.lookup g = none := by
          rw [List.lookup_eq_none_iff]
          intro p hp
          simp only [beq_eq_false_iff_ne, ne_eq, bne_iff_ne]
          intro e
          exact hk.1 (List.mem_map.2 ⟨p, hp, by simpa using e.symm⟩)
        simp [hnone, c1]
      · have : (g == f) = false := by simpa using hg
        rw [this]
        cases rest.lookup g with
        | some vs => rfl
        | none => exact o1 i g hg

/-- The columns of a table as a dictionary, in the given order. -/
def colsOf (m : Table F V) (ord : List F) : List (F × List (Option V)) :=
  ord.map fun f => (f, (m.getfield f).toOption.getD [])

theorem setFromTable_eq {m : Table F V} (hm : m.WF) (ord : List F) (ho : ∀ f ∈ ord, f ∈ m.fields)
    (n : Nat) (hn : m.len = n) (nt : Table F V) :
    setFromTable m ord nt = setFromDict n (colsOf m ord) nt := by
  induction ord generalizing nt with
  | nil => rfl
  | cons f fs ih =>
    obtain ⟨c, e, hl, _⟩ := getfield_spec hm (ho f (by simp))
    have ih' := fun nt => ih (fun g hg => ho g (by simp [hg])) nt
    simp only [setFromTable, e, colsOf, List.map_cons, setFromDict, Except.toOption, Option.getD]
    rw [if_neg (by omega)]
    cases nt.setfield f c with
    | error e => rfl
    | ok nt' => exact ih' nt'

theorem lookup_colsOf (m : Table F V) (ord : List F) (g : F) :
    (colsOf m ord).lookup g
      = if g ∈ ord then some ((m.getfield g).toOption.getD []) else none := by
  induction ord with
  | nil => rfl
  | cons f fs ih =>
    simp only [colsOf, List.map_cons, List.lookup_cons] at ih ⊢
    by_cases hg : g = f
    · subst hg; simp
    · have : (g == f) = false := by simpa using hg
      rw [this]
      simp only [List.mem_cons, hg, false_or]
      exact ih

theorem setOwn_spec {t : Table F V} (ht : t.WF) (hne : t.len ≠ 0) (ord : List F)
    (ho : ∀ f ∈ ord, f ∈ t.fields) (nt : Table F V) (h : nt.WF) (hlen : nt.len = t.len) :
    ∃ t', setOwn t ord nt = .ok t' ∧ t'.WF ∧ t'.len = t.len ∧
      (∀ g, g ∈ t'.fields ↔ g ∈ ord ∨ g ∈ nt.fields) ∧
      (∀ (i : Nat) g, t'.cell i g =
        if g ∉ nt.fields ∧ g ∈ ord then t.cell i g else nt.cell i g) := by
  induction ord generalizing nt with
  | nil => exact ⟨nt, rfl, h, hlen, by simp, by simp⟩
  | cons f fs ih =>
    have ho' : ∀ g ∈ fs, g ∈ t.fields := fun g hg => ho g (by simp [hg])
    by_cases hf : f ∈ nt.fields
    · obtain ⟨t2, e2, w2, l2, f2, c2⟩ := ih ho' nt h hlen
      refine ⟨t2, ?_, w2, l2, ?_, ?_⟩
      · rw [setOwn, if_neg (by simpa using hf)]; exact e2
      · intro g; rw [f2]; simp only [List.mem_cons]
        constructor
        · rintro (h | h)
          · exact Or.inl (Or.inr h)
          · exact Or.inr h
        · rintro ((rfl | h) | h)
          · exact Or.inr hf
          · exact Or.inl h
          · exact Or.inr h
      · intro i g; rw [c2]
        by_cases hg : g ∈ nt.fields
        · simp [hg]
        · have : g ≠ f := fun e => hg (e ▸ hf)
          simp [hg, this]
    · obtain ⟨c, e, hl, hc⟩ := getfield_spec ht (ho f (by simp))
      obtain ⟨t1, e1, w1, l1, f1, c1, o1⟩ := setfield_spec h (by omega) f c (by omega)
      obtain ⟨t2, e2, w2, l2, f2, c2⟩ := ih ho' t1 w1 (by omega)
      refine ⟨t2, ?_, w2, l2, ?_, ?_⟩
      · rw [setOwn, if_pos hf, e]; simp only []; rw [e1]; exact e2
      · intro g; rw [f2, f1]; simp only [List.mem_cons]; tauto
      · intro i g; rw [c2]
        by_cases hgf : g = f
        · subst hgf
          have : g ∈ t1.fields := (f1 g).2 (Or.inl rfl)
          simp [this, hf, c1, hc]
        · have : g ∈ t1.fields ↔ g ∈ nt.fields := by rw [f1]; simp [hgf]
          simp only [this, o1 i g hgf, List.mem_cons, hgf, false_or]

theorem wf_ofSize (n : Nat) : (ofSize [] n : Table F V).WF :=
  ⟨List.nodup_nil, fun r hr => by simp only [ofSize, List.mem_replicate] at hr; rw [hr.2]; rfl⟩

theorem cell_none {t : Table F V} {g : F} (hg : g ∉ t.fields) (i : Nat) : t.cell i g = none := by
  unfold cell
  cases t.data[i]? with
  | none => rfl
  | some r => exact lookup_zip_none _ _ _ hg

theorem getfield_congr {t t' : Table F V} (h : t.WF) (h' : t'.WF) {g : F}
    (hf : g ∈ t'.fields ↔ g ∈ t.fields) (hc : ∀ i, t'.cell i g = t.cell i g) :
    t'.getfield g = t.getfield g := by
  by_cases hg : g ∈ t.fields
  · obtain ⟨c, e, _, hk⟩ := getfield_spec h hg
    obtain ⟨c', e', _, hk'⟩ := getfield_spec h' (hf.2 hg)
    rw [e, e']
    congr 1
    apply List.ext_getElem?
    intro i
    rw [hk, hk', hc]
  · rw [getfield, getfield, if_neg hg, if_neg (fun h => hg (hf.1 h))]

theorem getfield_of_cells {t : Table F V} (h : t.WF) {g : F} (hg : g ∈ t.fields)
    (vs : List (Option V)) (hc : ∀ i : Nat, t.cell i g = vs[i]?) : t.getfield g = .ok vs := by
  obtain ⟨c, e, _, hk⟩ := getfield_spec h hg
  rw [e]; congr 1
  apply List.ext_getElem?
  intro i
  rw [hk, hc]

theorem getfield_col {t : Table F V} (h : t.WF) {g : F} (hg : g ∈ t.fields) (i : Nat) :
    ((t.getfield g).toOption.getD [])[i]? = t.cell i g := by
  obtain ⟨c, e, _, hk⟩ := getfield_spec h hg
  rw [e]; exact hk i

end Table

theorem lookupAll_ok {W : Type _} (k : F) (sets : List (List (F × W)))
    (h : ∀ p ∈ sets, k ∈ p.map Prod.fst) :
    ∃ vs, lookupAll k sets = .ok vs ∧ vs.length = sets.length ∧
      ∀ i : Nat, vs[i]? = (sets[i]?).bind fun p => p.lookup k := by
  induction sets with
  | nil => exact ⟨[], rfl, rfl, by simp⟩
  | cons p ps ih =>
    obtain ⟨vs, e, hl, hk⟩ := ih (fun q hq => h q (by simp [hq]))
    have hp := h p (by simp)
    cases hv : p.lookup k with
    | none =>
      exfalso
      rw [List.lookup_eq_none_iff] at hv
      obtain ⟨q, hq, rfl⟩ := List.mem_map.1 hp
      simpa using hv q hq
    | some v =>
      refine ⟨v :: vs, ?_, by simp [hl], ?_⟩
      · simp only [lookupAll, hv, e]
      · intro i
        cases i with
        | zero => simp [hv]
        | succ i => simpa using hk i

theorem joinLoop_ok {W : Type _} (sets : List (List (F × W))) (keys : List F)
    (h : ∀ k ∈ keys, ∀ p ∈ sets, k ∈ p.map Prod.fst) :
    ∃ d, joinLoop sets keys = .ok d ∧ d.map Prod.fst = keys ∧
      (∀ kv ∈ d, kv.2.length = sets.length ∧
        ∀ i : Nat, kv.2[i]? = (sets[i]?).bind fun p => p.lookup kv.1) := by
  induction keys with
  | nil => exact ⟨[], rfl, rfl, by simp⟩
  | cons k ks ih =>
    obtain ⟨vs, e, hl, hk⟩ := lookupAll_ok k sets (h k (by simp))
    obtain ⟨d, e', hd, hr⟩ := ih (fun k' hk' => h k' (by simp [hk']))
    refine ⟨(k, vs) :: d, ?_, by simp [hd], ?_⟩
    · simp only [joinLoop, e, e']
    · intro kv hkv
      rcases List.mem_cons.1 hkv with rfl | hkv
      · exact ⟨hl, hk⟩
      · exact hr kv hkv

theorem pick_ok {T : Type _} (xs : List T) (idxs : List Nat) (h : ∀ i ∈ idxs, i < xs.length) :
    ∃ r, pick xs idxs = .ok r ∧ r.length = idxs.length ∧
      ∀ k : Nat, r[k]? = (idxs[k]?).bind fun i => xs[i]? := by
  induction idxs with
  | nil => exact ⟨[], rfl, rfl, by simp⟩
  | cons i is ih =>
    obtain ⟨r, e, hl, hk⟩ := ih (fun j hj => h j (by simp [hj]))
    have hi := h i (by simp)
    refine ⟨xs[i] :: r, ?_, by simp [hl], ?_⟩
    · simp only [pick, List.getElem?_eq_getElem hi, e]
    · intro k
      cases k with
      | zero => simp [hi]
      | succ k => simpa using hk k

end Karta.Tab
