import Verif.Table.Json
import Verif.Table.Lemmas

/-!
Property C152: the JSON text of a table restates its columns.
-/

namespace Karta.Tab
open Table

/-! ### Specification -/

/-- What a value is in JSON, whatever Python type holds it.  Complex numbers are nothing in JSON. -/
def plain : Option Scalar → Option Json
  | none => some .null
  | some (.pyBool b) => some (.bool b)
  | some (.pyInt i) => some (.num i)
  | some (.pyFloat q) => some (.num q)
  | some (.pyStr s) => some (.str s)
  | some (.npInt i) => some (.num i)
  | some (.npUint n) => some (.num n)
  | some (.npFloat q) => some (.num q)
  | some (.npBool b) => some (.bool b)
  | some (.npComplex _ _) => none

/-- Values other than numpy's unsigned, boolean and complex ones. -/
def Accepted : Option Scalar → Prop
  | some (.npUint _) => False
  | some (.npBool _) => False
  | some (.npComplex _ _) => False
  | _ => True

/-- `col` restates the column of field `f`: one entry per row, in the order of the rows. -/
def Restates (t : Table String Scalar) (f : String) (col : List Json) : Prop :=
  col.length = t.len ∧ ∀ i v, t.cell i f = some v → col[i]? = plain v

/-! ### Lemmas -/

theorem encodeCell_ok (v : Option Scalar) (h : Accepted v) :
    ∃ j, encodeCell v = .ok j ∧ plain v = some j := by
  rcases v with _ | v
  · exact ⟨_, rfl, rfl⟩
  · cases v <;> first | exact ⟨_, rfl, rfl⟩ | exact absurd h id

theorem encodeCell_error (v : Option Scalar) (h : ¬ Accepted v) :
    encodeCell v = .error .typeError := by
  rcases v with _ | v
  · exact absurd trivial h
  · cases v <;> first | rfl | exact absurd trivial h

theorem encodeList_ok (l : List (Option Scalar)) (h : ∀ v ∈ l, Accepted v) :
    ∃ js, encodeList l = .ok js ∧ js.length = l.length ∧
      ∀ (i : Nat) v, l[i]? = some v → js[i]? = plain v := by
  induction l with
  | nil => exact ⟨[], rfl, rfl, by simp⟩
  | cons v vs ih =>
    obtain ⟨j, e, p⟩ := encodeCell_ok v (h v (by simp))
    obtain ⟨js, e', hl, hk⟩ := ih fun w hw => h w (by simp [hw])
    refine ⟨j :: js, by simp only [encodeList, e, e'], by simp [hl], fun i w hw => ?_⟩
    cases i with
    | zero =>
      simp only [List.getElem?_cons_zero, Option.some.injEq] at hw
      subst hw
      simp [p]
    | succ i => simpa using hk i w (by simpa using hw)

theorem encodeList_error (l : List (Option Scalar)) (h : ∃ v ∈ l, ¬ Accepted v) :
    encodeList l = .error .typeError := by
  induction l with
  | nil => simp at h
  | cons v vs ih =>
    by_cases hv : Accepted v
    · obtain ⟨j, e, _⟩ := encodeCell_ok v hv
      obtain ⟨w, hw, hw'⟩ := h
      rcases List.mem_cons.mp hw with rfl | hw
      · exact absurd hv hw'
      · simp only [encodeList, e, ih ⟨w, hw, hw'⟩]
    · simp only [encodeList, encodeCell_error v hv]

theorem cell_of_mem {t : Table String Scalar} {f : String} {c : List (Option Scalar)}
    (hc : ∀ i : Nat, c[i]? = t.cell i f) {v : Option Scalar} (hv : v ∈ c) :
    ∃ i, t.cell i f = some v := by
  obtain ⟨i, hi⟩ := List.getElem?_of_mem hv
  exact ⟨i, by rw [← hc, hi]⟩

theorem encodeFields_ok {t : Table String Scalar} (h : t.WF)
    (ha : ∀ f i v, t.cell i f = some v → Accepted v) (fs : List String)
    (hfs : ∀ f ∈ fs, f ∈ t.fields) :
    ∃ o, encodeFields t fs = .ok o ∧ o.map Prod.fst = fs ∧
      ∀ f ∈ fs, ∃ col, o.lookup f = some (.arr [.arr col]) ∧ Restates t f col := by
  induction fs with
  | nil => exact ⟨[], rfl, rfl, by simp⟩
  | cons g gs ih =>
    obtain ⟨c, e, hl, hc⟩ := getfield_spec h (hfs g (by simp))
    obtain ⟨js, ej, hjl, hjk⟩ := encodeList_ok c fun v hv => by
      obtain ⟨i, hi⟩ := cell_of_mem hc hv
      exact ha g i v hi
    obtain ⟨o, eo, ho, hok⟩ := ih fun f hf => hfs f (by simp [hf])
    refine ⟨(g, .arr [.arr js]) :: o, by simp only [encodeFields, e, ej, eo], by simp [ho], ?_⟩
    intro f hf
    by_cases hfg : f = g
    · subst hfg
      refine ⟨js, by simp [List.lookup], by rw [hjl, hl], fun i v hv => hjk i v ?_⟩
      rw [hc, hv]
    · obtain ⟨col, hcol, hr⟩ := hok f ((List.mem_cons.mp hf).resolve_left hfg)
      refine ⟨col, ?_, hr⟩
      have : (f == g) = false := by simpa using hfg
      simp only [List.lookup, this, hcol]

theorem encodeFields_error {t : Table String Scalar} (h : t.WF) (fs : List String)
    (hfs : ∀ f ∈ fs, f ∈ t.fields) (hb : ∃ f ∈ fs, ∃ i v, t.cell i f = some v ∧ ¬ Accepted v) :
    encodeFields t fs = .error .typeError := by
  induction fs with
  | nil => simp at hb
  | cons g gs ih =>
    obtain ⟨c, e, hl, hc⟩ := getfield_spec h (hfs g (by simp))
    by_cases hg : ∀ v ∈ c, Accepted v
    · obtain ⟨js, ej, _⟩ := encodeList_ok c hg
      have := ih (fun f hf => hfs f (by simp [hf])) (by
        obtain ⟨f, hf, i, v, hv, hn⟩ := hb
        rcases List.mem_cons.mp hf with rfl | hf
        · exact absurd (hg v (List.mem_of_getElem? (by rw [hc, hv]))) hn
        · exact ⟨f, hf, i, v, hv, hn⟩)
      simp only [encodeFields, e, ej, this]
    · push Not at hg
      simp only [encodeFields, e, encodeList_error c hg]

theorem cell_field {t : Table String Scalar} {i : Nat} {f : String} {v : Option Scalar}
    (h : t.cell i f = some v) : f ∈ t.fields := by
  unfold Table.cell at h
  obtain ⟨row, _, hl⟩ := Option.bind_eq_some_iff.mp h
  have : ∀ (fs : List String) (row : List (Option Scalar)), (fs.zip row).lookup f = some v → f ∈ fs := by
    intro fs
    induction fs with
    | nil => intro row hr; simp at hr
    | cons g gs ih =>
      intro row hr
      cases row with
      | nil => simp at hr
      | cons x xs =>
        by_cases hfg : f = g
        · simp [hfg]
        · have e : (f == g) = false := by simpa using hfg
          simp only [List.zip_cons_cons, List.lookup, e] at hr
          exact List.mem_cons_of_mem _ (ih xs hr)
  exact this _ _ hl

theorem cell_row {t : Table String Scalar} {i : Nat} {f : String} {v : Option Scalar}
    (h : t.cell i f = some v) : i < t.len := by
  unfold Table.cell at h
  obtain ⟨row, hr, _⟩ := Option.bind_eq_some_iff.mp h
  exact (List.getElem?_eq_some_iff.mp hr).1

theorem cell_exists {t : Table String Scalar} (h : t.WF) {i : Nat} {f : String} (hi : i < t.len)
    (hf : f ∈ t.fields) : ∃ v, t.cell i f = some v := by
  obtain ⟨c, _, hl, hc⟩ := getfield_spec h hf
  exact ⟨c[i]'(by omega), by rw [← hc]; exact List.getElem?_eq_getElem _⟩

theorem plain_not_arr (v : Option Scalar) (l : List Json) : plain v ≠ some (.arr l) := by
  rcases v with _ | v
  · simp [plain]
  · cases v <;> simp [plain]

/-! ### C152 -/

/-- **C152 (partial).** Full statement: the JSON text of a table decodes to an object with the table's
fields, under each of which stands the list of the column's values in the order of the rows.  Proved:
fields, values and their order are right for every table of values other than numpy's unsigned,
boolean and complex ones, except that the list of values is wrapped in a list of its own
(`C152_violated_nesting`). -/
theorem C152_columns_partial (t : Table String Scalar) (h : t.WF)
    (ha : ∀ f i v, t.cell i f = some v → Accepted v) :
    ∃ o, t.asjson = .ok (.obj o) ∧ o.map Prod.fst = t.fields ∧
      ∀ f ∈ t.fields, ∃ col, o.lookup f = some (.arr [.arr col]) ∧ Restates t f col := by
  obtain ⟨o, e, h1, h2⟩ := encodeFields_ok h ha t.fields fun _ hf => hf
  exact ⟨o, by simp only [Table.asjson, e], h1, h2⟩

/-- **C152 (what is refused).** A single value that is a numpy unsigned, boolean or complex number,
anywhere in the table, makes the whole call raise `TypeError`. -/
theorem C152_refused (t : Table String Scalar) (h : t.WF) (f : String) (i : Nat) (v : Option Scalar)
    (hv : t.cell i f = some v) (hn : ¬ Accepted v) : t.asjson = .error .typeError := by
  simp only [Table.asjson,
    encodeFields_error h t.fields (fun _ hf => hf) ⟨f, cell_field hv, i, v, hv, hn⟩]

/-- **C152 (nothing is lost).** Two tables with the same JSON text have the same fields, the same
number of rows (unless there are no fields at all) and the same values in all cells, up to the Python
types that hold them. -/
theorem C152_lossless (t u : Table String Scalar) (ht : t.WF) (hu : u.WF) (j : Json)
    (et : t.asjson = .ok j) (eu : u.asjson = .ok j) :
    t.fields = u.fields ∧ (t.fields ≠ [] → t.len = u.len) ∧
    ∀ f i v w, t.cell i f = some v → u.cell i f = some w → plain v = plain w := by
  have A : ∀ s : Table String Scalar, s.WF → s.asjson = .ok j →
      ∀ f i v, s.cell i f = some v → Accepted v := by
    intro s hs es f i v hv
    by_contra hn
    rw [C152_refused s hs f i v hv hn] at es
    cases es
  obtain ⟨o, eo, o1, o2⟩ := C152_columns_partial t ht (A t ht et)
  obtain ⟨o', eo', p1, p2⟩ := C152_columns_partial u hu (A u hu eu)
  have e : o = o' := by
    rw [et] at eo
    rw [eu] at eo'
    have := (Except.ok.inj eo).symm.trans (Except.ok.inj eo')
    injection this
  subst e
  have C : ∀ f, f ∈ t.fields → f ∈ u.fields → ∃ c, Restates t f c ∧ Restates u f c := by
    intro f hf hf'
    obtain ⟨c, hc, hc'⟩ := o2 f hf
    obtain ⟨d, hd, hd'⟩ := p2 f hf'
    have : c = d := by
      rw [hc] at hd
      simpa using hd
    subst this
    exact ⟨c, hc', hd'⟩
  refine ⟨o1.symm.trans p1, fun hne => ?_, fun f i v w hv hw => ?_⟩
  · obtain ⟨f, hf⟩ := List.exists_mem_of_ne_nil _ hne
    obtain ⟨c, h1, h2⟩ := C f hf (by rw [← o1.symm.trans p1]; exact hf)
    rw [← h1.1, h2.1]
  obtain ⟨c, hc', hd'⟩ := C f (cell_field hv) (cell_field hw)
  rw [← hc'.2 i v hv, hd'.2 i w hw]

/-- **C152 (violated).** No field of any table has its column in the JSON text: what stands there is
a list with one element, which is the column. -/
theorem C152_violated_nesting (t : Table String Scalar) (h : t.WF) (o : List (String × Json))
    (e : t.asjson = .ok (.obj o)) (f : String) (hf : f ∈ t.fields) :
    ¬ ∃ col, o.lookup f = some (.arr col) ∧ Restates t f col := by
  rintro ⟨col, hcol, hlen, hk⟩
  have ha : ∀ f i v, t.cell i f = some v → Accepted v := by
    intro f i v hv
    by_contra hn
    rw [C152_refused t h f i v hv hn] at e
    cases e
  obtain ⟨o', eo, _, h2⟩ := C152_columns_partial t h ha
  have : o = o' := by
    rw [e] at eo
    injection Except.ok.inj eo
  subst this
  obtain ⟨js, hjs, _⟩ := h2 f hf
  have : col = [.arr js] := by
    rw [hcol] at hjs
    simpa using hjs
  subst this
  obtain ⟨v, hv⟩ := cell_exists h (i := 0) (by rw [← hlen]; simp) hf
  exact plain_not_arr v js ((hk 0 v hv).symm.trans rfl)

/-- **C152 (violated).** Unsigned numbers, as the pixels of an image are, have an obvious JSON form
but are refused. -/
theorem C152_violated_unsigned (n : Nat) :
    plain (some (.npUint n)) = some (.num n) ∧
    Table.asjson ⟨["red"], [[some (.npUint n)]]⟩ = .error .typeError :=
  ⟨rfl, rfl⟩

/-! ### A table that meets the hypotheses -/

/-- Two rows of a name and a height, one of them missing. -/
def heights : Table String Scalar :=
  ⟨["name", "height"], [[some (.pyStr "a"), some (.npInt 12)], [some (.pyStr "b"), none]]⟩

theorem heights_wf : heights.WF :=
  ⟨by decide, by intro r hr; simp only [heights, List.mem_cons, List.not_mem_nil, or_false] at hr
                 rcases hr with rfl | rfl <;> rfl⟩

example : ∀ f i v, heights.cell i f = some v → Accepted v := by
  intro f i v hv
  have hf := cell_field hv
  have hi : i < 2 := cell_row hv
  simp only [heights, List.mem_cons, List.not_mem_nil, or_false] at hf
  have hi : i = 0 ∨ i = 1 := by omega
  rcases hf with rfl | rfl <;> rcases hi with rfl | rfl <;>
    (first
      | (have := hv.symm.trans (show heights.cell 0 "name" = some (some (.pyStr "a")) by decide)
         cases this; trivial)
      | (have := hv.symm.trans (show heights.cell 1 "name" = some (some (.pyStr "b")) by decide)
         cases this; trivial)
      | (have := hv.symm.trans (show heights.cell 0 "height" = some (some (.npInt 12)) by decide)
         cases this; trivial)
      | (have := hv.symm.trans (show heights.cell 1 "height" = some none by decide)
         cases this; trivial))

example : heights.asjson = .ok (.obj
    [("name", .arr [.arr [.str "a", .str "b"]]), ("height", .arr [.arr [.num 12, .null]])]) := by
  rfl

end Karta.Tab
