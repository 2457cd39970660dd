import Verif.Vec.Sharing
import Verif.Table.Props

/-!
# Which geometries share attributes: C122

The specification numbers families of geometries by looking at the calls alone.
-/

namespace Karta.Share
open Karta Karta.Tab

variable {F V : Type} [DecidableEq F]

/-! ### Specification -/

/-- The family of a geometry for its properties, and for its table. -/
structure Fam where
  p : Nat
  t : Option Nat

/-- The family of the properties of geometry `g`; a new one if there is no such geometry. -/
def pOf (fs : List Fam) (g : Nat) : Nat := ((fs[g]?).map Fam.p).getD fs.length

/-- The family of the table of geometry `g`. -/
def tOf (fs : List Fam) (g : Nat) : Option Nat := (fs[g]?).bind Fam.t

/-- Families after a call: a geometry made out of another joins its family for the properties, except an item of a collection; a moved
`Multipoint`, a moved collection of no parts and a collection made with the table of another join its family for the table. -/
def families (fs : List Fam) : Op F V → List Fam
  | .create _ d => fs ++ [⟨fs.length, d.map fun _ => fs.length⟩]
  | .derive g => fs ++ [⟨pOf fs g, none⟩]
  | .move g => fs ++ [⟨pOf fs g, tOf fs g⟩]
  | .moveParts g n _ _ => fs ++ [⟨pOf fs g, if n = 0 then tOf fs g else some fs.length⟩]
  | .slice g _ => fs ++ [⟨pOf fs g, some fs.length⟩]
  | .part _ _ => fs ++ [⟨fs.length, none⟩]
  | .withTable g => fs ++ [⟨fs.length, tOf fs g⟩]
  | .setProp _ _ _ | .setPoint _ _ _ _ | .setField _ _ _ => fs

/-- Families after a history. -/
def famRun (ops : List (Op F V)) : List Fam := ops.foldl families []

/-! ### The invariant -/

structure Inv (s : St F V) (fs : List Fam) : Prop where
  len : fs.length = s.geoms.length
  bound : ∀ f ∈ fs, f.p ≤ fs.length ∧ ∀ t, f.t = some t → t ≤ fs.length
  old : ∀ (x : Nat) (f : Fam), fs[x]? = some f → f.p ≤ x ∧ ∀ t, f.t = some t → t ≤ x
  refs : ∀ (x : Nat) (r : G), s.geom x = some r → r.props < s.dicts.length ∧ ∀ t, r.tab = some t → t < s.tabs.length
  tabs : ∀ (x : Nat) (r : G) (f : Fam), s.geom x = some r → fs[x]? = some f → (r.tab.isSome ↔ f.t.isSome)
  same : ∀ (x y : Nat) (r q : G) (f g : Fam), s.geom x = some r → s.geom y = some q → fs[x]? = some f → fs[y]? = some g →
    (r.props = q.props ↔ f.p = g.p) ∧
    ∀ t u t' u', r.tab = some t → q.tab = some u → f.t = some t' → g.t = some u' → (t = u ↔ t' = u')

theorem geom_append (s : St F V) (gs : List (Option G)) (o : Option G) (d : List (List (F × Option V))) (t : List (Table F V))
    (hs : s.geoms = gs) (x : Nat) :
    St.geom ⟨gs ++ [o], d, t⟩ x = if x = gs.length then o else s.geom x := by
  unfold St.geom
  subst hs
  by_cases h : x = s.geoms.length
  · subst h; simp
  · rw [if_neg h]
    by_cases h' : x < s.geoms.length
    · rw [List.getElem?_append_left h']
    · have e1 : s.geoms[x]? = none := by rw [List.getElem?_eq_none_iff]; omega
      have e2 : (s.geoms ++ [o])[x]? = none := by rw [List.getElem?_eq_none_iff]; simp; omega
      rw [e1, e2]

theorem fam_append (fs : List Fam) (f : Fam) (x : Nat) :
    (fs ++ [f])[x]? = if x = fs.length then some f else fs[x]? := by
  by_cases h : x = fs.length
  · subst h; simp
  · rw [if_neg h]
    by_cases h' : x < fs.length
    · rw [List.getElem?_append_left h']
    · have e1 : fs[x]? = none := by rw [List.getElem?_eq_none_iff]; omega
      have e2 : (fs ++ [f])[x]? = none := by rw [List.getElem?_eq_none_iff, List.length_append, List.length_singleton]; omega
      rw [e1, e2]

/-- One more geometry, with old or new references, keeps the invariant. -/
theorem inv_append {s : St F V} {fs : List Fam} (h : Inv s fs) (o : Option G) (d : List (List (F × Option V))) (t : List (Table F V))
    (hd : s.dicts.length ≤ d.length) (ht : s.tabs.length ≤ t.length) (f : Fam)
    (hf : f.p ≤ fs.length ∧ ∀ t, f.t = some t → t ≤ fs.length)
    (ho : ∀ r, o = some r → (r.tab.isSome ↔ f.t.isSome) ∧ r.props < d.length ∧ (∀ t', r.tab = some t' → t' < t.length) ∧
      ((r.props = s.dicts.length ∧ f.p = fs.length) ∨ ∃ (g : Nat) (q : G) (k : Fam), s.geom g = some q ∧ fs[g]? = some k ∧ r.props = q.props ∧ f.p = k.p) ∧
      (r.tab = none ∨ (r.tab = some s.tabs.length ∧ f.t = some fs.length) ∨
        ∃ (g : Nat) (q : G) (k : Fam), s.geom g = some q ∧ fs[g]? = some k ∧ r.tab = q.tab ∧ f.t = k.t)) :
    Inv ⟨s.geoms ++ [o], d, t⟩ (fs ++ [f]) := by
  have hg := geom_append s s.geoms o d t rfl
  have hfa := fam_append fs f
  have lt_of : ∀ x r, s.geom x = some r → x < fs.length := by
    intro x r hx
    rw [h.len]
    by_contra hge
    unfold St.geom at hx
    rw [List.getElem?_eq_none_iff.2 (by omega)] at hx
    cases hx
  have plt : ∀ (x : Nat) (k : Fam), fs[x]? = some k → k.p < fs.length := by
    intro x k hx
    have := (h.old x k hx).1
    have := (List.getElem?_eq_some_iff.1 hx).1
    omega
  have tlt : ∀ (x : Nat) (k : Fam) (u : Nat), fs[x]? = some k → k.t = some u → u < fs.length := by
    intro x k u hx hu
    have := (h.old x k hx).2 u hu
    have := (List.getElem?_eq_some_iff.1 hx).1
    omega
  -- comparison of the new geometry with an old one
  have cmp : ∀ r, o = some r → ∀ (y : Nat) (q : G) (k : Fam), s.geom y = some q → fs[y]? = some k →
      (r.props = q.props ↔ f.p = k.p) ∧
      ∀ t1 u t1' u', r.tab = some t1 → q.tab = some u → f.t = some t1' → k.t = some u' → (t1 = u ↔ t1' = u') := by
    intro r hr y q k hy hk
    obtain ⟨-, -, -, hp, htb⟩ := ho r hr
    constructor
    · rcases hp with ⟨e1, e2⟩ | ⟨g, q', k', e1, e2, e3, e4⟩
      · have := (h.refs y q hy).1
        have := plt y k hk
        omega
      · rw [e3, e4]; exact (h.same g y q' q k' k e1 hy e2 hk).1
    · intro t1 u t1' u' a1 a2 a3 a4
      rcases htb with e | ⟨e1, e2⟩ | ⟨g, q', k', e1, e2, e3, e4⟩
      · rw [e] at a1; cases a1
      · have b1 := (h.refs y q hy).2 u a2
        have b2 := tlt y k u' hk a4
        rw [e1] at a1; rw [e2] at a3
        cases a1; cases a3
        omega
      · rw [e3] at a1; rw [e4] at a3
        exact (h.same g y q' q k' k e1 hy e2 hk).2 t1 u t1' u' a1 a2 a3 a4
  constructor
  · simp [h.len]
  · intro k hk
    rw [List.mem_append, List.mem_singleton] at hk
    rw [List.length_append, List.length_singleton]
    rcases hk with hk | rfl
    · obtain ⟨b1, b2⟩ := h.bound k hk
      exact ⟨by omega, fun t ht => by have := b2 t ht; omega⟩
    · exact ⟨by omega, fun t ht => by have := hf.2 t ht; omega⟩
  · intro x k hx
    rw [hfa] at hx
    by_cases hxl : x = fs.length
    · rw [if_pos hxl] at hx; cases hx
      subst hxl
      exact hf
    · rw [if_neg hxl] at hx
      exact h.old x k hx
  · intro x r hx
    rw [hg] at hx
    by_cases hxl : x = s.geoms.length
    · rw [if_pos hxl] at hx
      obtain ⟨-, a, b, -⟩ := ho r hx
      exact ⟨a, b⟩
    · rw [if_neg hxl] at hx
      obtain ⟨a, b⟩ := h.refs x r hx
      exact ⟨by dsimp only; omega, fun t' ht' => by have := b t' ht'; dsimp only; omega⟩
  · intro x r k hx hk
    rw [hg] at hx
    rw [hfa] at hk
    by_cases hxl : x = s.geoms.length
    · rw [if_pos hxl] at hx
      rw [if_pos (by rw [h.len]; exact hxl)] at hk
      cases hk
      exact (ho r hx).1
    · rw [if_neg hxl] at hx
      rw [if_neg (by rw [h.len]; exact hxl)] at hk
      exact h.tabs x r k hx hk
  · intro x y r q k l hx hy hk hl
    rw [hg] at hx hy
    rw [hfa] at hk hl
    rw [h.len] at hk hl
    by_cases hxl : x = s.geoms.length <;> by_cases hyl : y = s.geoms.length
    · rw [if_pos hxl] at hx hk
      rw [if_pos hyl] at hy hl
      rw [hx] at hy
      cases hy; cases hk; cases hl
      refine ⟨by simp, ?_⟩
      intro t1 u t1' u' a1 a2 a3 a4
      rw [a1] at a2; rw [a3] at a4
      cases a2; cases a4; simp
    · rw [if_pos hxl] at hx hk
      rw [if_neg hyl] at hy hl
      cases hk
      exact cmp r hx y q l hy hl
    · rw [if_neg hxl] at hx hk
      rw [if_pos hyl] at hy hl
      cases hl
      obtain ⟨c1, c2⟩ := cmp q hy x r k hx hk
      exact ⟨⟨fun e => (c1.1 e.symm).symm, fun e => (c1.2 e.symm).symm⟩, fun t1 u t1' u' a1 a2 a3 a4 =>
        ⟨fun e => ((c2 u t1 u' t1' a2 a1 a4 a3).1 e.symm).symm, fun e => ((c2 u t1 u' t1' a2 a1 a4 a3).2 e.symm).symm⟩⟩
    · rw [if_neg hxl] at hx hk
      rw [if_neg hyl] at hy hl
      exact h.same x y r q k l hx hy hk hl

theorem fam_of_geom {s : St F V} {fs : List Fam} (h : Inv s fs) {x : Nat} {r : G} (hx : s.geom x = some r) :
    ∃ f, fs[x]? = some f ∧ pOf fs x = f.p ∧ tOf fs x = f.t := by
  have hlt : x < fs.length := by
    rw [h.len]
    by_contra hge
    unfold St.geom at hx
    rw [List.getElem?_eq_none_iff.2 (by omega)] at hx
    cases hx
  refine ⟨fs[x], List.getElem?_eq_getElem hlt, ?_, ?_⟩
  · unfold pOf; rw [List.getElem?_eq_getElem hlt]; rfl
  · unfold tOf; rw [List.getElem?_eq_getElem hlt]; rfl

theorem pOf_le {s : St F V} {fs : List Fam} (h : Inv s fs) (g : Nat) : pOf fs g ≤ fs.length := by
  unfold pOf
  cases hg : fs[g]? with
  | none => simp
  | some f => simpa using (h.bound f (List.mem_of_getElem? hg)).1

theorem tOf_le {s : St F V} {fs : List Fam} (h : Inv s fs) (g t : Nat) (ht : tOf fs g = some t) : t ≤ fs.length := by
  unfold tOf at ht
  cases hg : fs[g]? with
  | none => rw [hg] at ht; cases ht
  | some f => rw [hg] at ht; exact (h.bound f (List.mem_of_getElem? hg)).2 t ht

/-- Same references, tables or dictionaries of the same number: the invariant stays. -/
theorem inv_content {s : St F V} {fs : List Fam} (h : Inv s fs) (d : List (List (F × Option V))) (t : List (Table F V))
    (hd : d.length = s.dicts.length) (ht : t.length = s.tabs.length) : Inv ⟨s.geoms, d, t⟩ fs :=
  ⟨h.len, h.bound, h.old, fun x r hx => by
    obtain ⟨a, b⟩ := h.refs x r hx
    exact ⟨by dsimp only; omega, fun t' ht' => by have := b t' ht'; dsimp only; omega⟩, h.tabs, h.same⟩

theorem inv_updateTable {s : St F V} {fs : List Fam} (h : Inv s fs) (g : Nat) (f : Table F V → Except Err (Table F V)) :
    Inv (s.updateTable g f) fs := by
  unfold St.updateTable
  split
  · split
    · split
      · exact inv_content h _ _ rfl (by simp)
      · exact h
    · exact h
  · exact h

theorem inv_none {s : St F V} {fs : List Fam} (h : Inv s fs) (f : Fam)
    (hf : f.p ≤ fs.length ∧ ∀ t, f.t = some t → t ≤ fs.length) : Inv { s with geoms := s.geoms ++ [none] } (fs ++ [f]) :=
  inv_append h none s.dicts s.tabs (Nat.le_refl _) (Nat.le_refl _) f hf (by simp)

theorem inv_moved {s : St F V} {fs : List Fam} (h : Inv s fs) (g : Nat) :
    Inv { s with geoms := s.geoms ++ [s.geom g] } (fs ++ [⟨pOf fs g, tOf fs g⟩]) := by
  refine inv_append h _ _ _ (Nat.le_refl _) (Nat.le_refl _) _ ⟨pOf_le h g, tOf_le h g⟩ ?_
  intro r hr
  obtain ⟨k, hk, e1, e2⟩ := fam_of_geom h hr
  refine ⟨?_, (h.refs g r hr).1, (h.refs g r hr).2, Or.inr ⟨g, r, k, hr, hk, rfl, e1⟩, Or.inr (Or.inr ⟨g, r, k, hr, hk, rfl, e2⟩)⟩
  dsimp only
  rw [e2]; exact h.tabs g r k hr hk

theorem inv_step {s : St F V} {fs : List Fam} (h : Inv s fs) (op : Op F V) : Inv (s.step op) (families fs op) := by
  cases op with
  | create p d =>
    cases d with
    | none =>
      refine inv_append h _ _ _ (by simp) (Nat.le_refl _) _ ⟨Nat.le_refl _, by simp⟩ ?_
      intro r hr; cases hr
      exact ⟨by simp, by simp, by simp, Or.inl ⟨rfl, rfl⟩, Or.inl rfl⟩
    | some t =>
      refine inv_append h _ _ _ (by simp) (by simp) _ ⟨Nat.le_refl _, by simp⟩ ?_
      intro r hr; cases hr
      refine ⟨by simp, by simp, ?_, Or.inl ⟨rfl, rfl⟩, Or.inr (Or.inl ⟨rfl, rfl⟩)⟩
      intro t' ht'; cases ht'; simp
  | derive g =>
    refine inv_append h _ _ _ (Nat.le_refl _) (Nat.le_refl _) _ ⟨pOf_le h g, by simp⟩ ?_
    intro r hr
    obtain ⟨q, hq, rfl⟩ := Option.map_eq_some_iff.1 hr
    obtain ⟨k, hk, e1, e2⟩ := fam_of_geom h hq
    exact ⟨by simp, (h.refs g q hq).1, by simp, Or.inr ⟨g, q, k, hq, hk, rfl, e1⟩, Or.inl rfl⟩
  | move g => exact inv_moved h g
  | moveParts g n keys ord =>
    show Inv (if n = 0 then { s with geoms := s.geoms ++ [s.geom g] }
      else
        match s.geom g, s.props g, s.table g with
        | some r, some own, some t =>
          match movedTable t own n keys ord with
          | .ok t' => { s with geoms := s.geoms ++ [some ⟨r.props, some s.tabs.length⟩], tabs := s.tabs ++ [t'] }
          | .error _ => { s with geoms := s.geoms ++ [none] }
        | _, _, _ => { s with geoms := s.geoms ++ [none] }) (fs ++ [⟨pOf fs g, if n = 0 then tOf fs g else some fs.length⟩])
    by_cases hn : n = 0
    · rw [if_pos hn, if_pos hn]
      exact inv_moved h g
    rw [if_neg hn, if_neg hn]
    have hf : (⟨pOf fs g, some fs.length⟩ : Fam).p ≤ fs.length ∧
        ∀ t, (⟨pOf fs g, some fs.length⟩ : Fam).t = some t → t ≤ fs.length :=
      ⟨pOf_le h g, by intro t ht; cases ht; exact Nat.le_refl _⟩
    split
    · rename_i q own t hq ho ht
      split
      · refine inv_append h _ _ _ (Nat.le_refl _) (by simp) _ hf ?_
        intro r hr; cases hr
        obtain ⟨k, hk, e1, e2⟩ := fam_of_geom h hq
        refine ⟨by simp, (h.refs g q hq).1, ?_, Or.inr ⟨g, q, k, hq, hk, rfl, e1⟩, Or.inr (Or.inl ⟨rfl, rfl⟩)⟩
        intro t' ht'; cases ht'; simp
      · exact inv_none h _ hf
    · exact inv_none h _ hf
  | slice g rows =>
    have hf : (⟨pOf fs g, some fs.length⟩ : Fam).p ≤ fs.length ∧
        ∀ t, (⟨pOf fs g, some fs.length⟩ : Fam).t = some t → t ≤ fs.length :=
      ⟨pOf_le h g, by intro t ht; cases ht; exact Nat.le_refl _⟩
    show Inv (match s.geom g, s.table g with
      | some r, some t =>
        match sliceTable t rows with
        | .ok t' => { s with geoms := s.geoms ++ [some ⟨r.props, some s.tabs.length⟩], tabs := s.tabs ++ [t'] }
        | .error _ => { s with geoms := s.geoms ++ [none] }
      | _, _ => { s with geoms := s.geoms ++ [none] }) (fs ++ [⟨pOf fs g, some fs.length⟩])
    split
    · rename_i q t hq ht
      split
      · refine inv_append h _ _ _ (Nat.le_refl _) (by simp) _ hf ?_
        intro r hr; cases hr
        obtain ⟨k, hk, e1, e2⟩ := fam_of_geom h hq
        refine ⟨by simp, (h.refs g q hq).1, ?_, Or.inr ⟨g, q, k, hq, hk, rfl, e1⟩, Or.inr (Or.inl ⟨rfl, rfl⟩)⟩
        intro t' ht'; cases ht'; simp
      · exact inv_none h _ hf
    · exact inv_none h _ hf
  | part g i =>
    have hf : (⟨fs.length, none⟩ : Fam).p ≤ fs.length ∧ ∀ t, (⟨fs.length, none⟩ : Fam).t = some t → t ≤ fs.length :=
      ⟨Nat.le_refl _, by simp⟩
    show Inv (match s.props g, s.table g with
      | some own, some t =>
        match partProperties t own i with
        | .ok p => { s with geoms := s.geoms ++ [some ⟨s.dicts.length, none⟩], dicts := s.dicts ++ [p] }
        | .error _ => { s with geoms := s.geoms ++ [none] }
      | _, _ => { s with geoms := s.geoms ++ [none] }) (fs ++ [⟨fs.length, none⟩])
    split
    · split
      · refine inv_append h _ _ _ (by simp) (Nat.le_refl _) _ hf ?_
        intro r hr; cases hr
        exact ⟨by simp, by simp, by simp, Or.inl ⟨rfl, rfl⟩, Or.inl rfl⟩
      · exact inv_none h _ hf
    · exact inv_none h _ hf
  | withTable g =>
    have hf : (⟨fs.length, tOf fs g⟩ : Fam).p ≤ fs.length ∧ ∀ t, (⟨fs.length, tOf fs g⟩ : Fam).t = some t → t ≤ fs.length :=
      ⟨Nat.le_refl _, tOf_le h g⟩
    show Inv (match s.geom g with
      | some ⟨_, some t⟩ => { s with geoms := s.geoms ++ [some ⟨s.dicts.length, some t⟩], dicts := s.dicts ++ [[]] }
      | _ => { s with geoms := s.geoms ++ [none] }) (fs ++ [⟨fs.length, tOf fs g⟩])
    split
    · rename_i p t hq
      refine inv_append h _ _ _ (by simp) (Nat.le_refl _) _ hf ?_
      intro r hr; cases hr
      obtain ⟨k, hk, e1, e2⟩ := fam_of_geom h hq
      have hkt := h.tabs g _ k hq hk
      refine ⟨?_, by simp, ?_, Or.inl ⟨rfl, rfl⟩, Or.inr (Or.inr ⟨g, _, k, hq, hk, rfl, e2⟩)⟩
      · dsimp only; rw [e2]; exact hkt
      · intro t' ht'; cases ht'; exact (h.refs g _ hq).2 t rfl
    · exact inv_none h _ hf
  | setProp g k v =>
    show Inv (match s.geom g with
      | some r => { s with dicts := s.dicts.modify r.props fun d => dictUpdate d [(k, v)] }
      | none => s) fs
    split
    · exact inv_content h _ _ (by simp) rfl
    · exact h
  | setPoint g i p ord => exact inv_updateTable h g _
  | setField g f vs => exact inv_updateTable h g _

theorem inv_run (ops : List (Op F V)) : Inv (St.run ops) (famRun ops) := by
  unfold St.run famRun
  have : ∀ (s : St F V) (fs : List Fam), Inv s fs → Inv (ops.foldl St.step s) (ops.foldl families fs) := by
    induction ops with
    | nil => intro s fs h; exact h
    | cons op ops ih => intro s fs h; exact ih _ _ (inv_step h op)
  exact this _ _ ⟨rfl, by simp, by simp [St.geom, St.empty], by simp [St.geom, St.empty], by simp [St.geom, St.empty],
    by simp [St.geom, St.empty]⟩

/-! ### C122 -/

/-- C122: after any history, assigning to the properties of `y` is seen in the properties of `x` exactly if the two are of one family, and
never in a table. -/
theorem C122_properties (ops : List (Op F V)) (x y : Nat) (k : F) (v : Option V) (dx dy : List (F × Option V))
    (hx : (St.run ops).props x = some dx) (hy : (St.run ops).props y = some dy) :
    (pOf (famRun ops) x = pOf (famRun ops) y → (St.run (ops ++ [.setProp y k v])).props x = some (dictUpdate dx [(k, v)])) ∧
    (pOf (famRun ops) x ≠ pOf (famRun ops) y → (St.run (ops ++ [.setProp y k v])).props x = some dx) ∧
    (St.run (ops ++ [.setProp y k v])).table x = (St.run ops).table x := by
  have h := inv_run ops
  have hrun : St.run (ops ++ [.setProp y k v]) = (St.run ops).step (.setProp y k v) := by
    unfold St.run; rw [List.foldl_append]; rfl
  rw [hrun]
  generalize St.run ops = s at *
  generalize famRun ops = fs at *
  obtain ⟨r, hr, hrd⟩ := Option.bind_eq_some_iff.1 hx
  obtain ⟨q, hq, hqd⟩ := Option.bind_eq_some_iff.1 hy
  obtain ⟨f, hf, e1, -⟩ := fam_of_geom h hr
  obtain ⟨g, hg, e2, -⟩ := fam_of_geom h hq
  have hs : s.step (.setProp y k v) = { s with dicts := s.dicts.modify q.props fun d => dictUpdate d [(k, v)] } := by
    show (match s.geom y with
      | some r => { s with dicts := s.dicts.modify r.props fun d => dictUpdate d [(k, v)] }
      | none => s) = _
    rw [hq]
  rw [hs, e1, e2]
  have hiff := (h.same x y r q f g hr hq hf hg).1
  have hp : St.props { s with dicts := s.dicts.modify q.props fun d => dictUpdate d [(k, v)] } x =
      (s.dicts.modify q.props fun d => dictUpdate d [(k, v)])[r.props]? := by
    show ((s.geom x).bind fun r => (s.dicts.modify q.props fun d => dictUpdate d [(k, v)])[r.props]?) = _
    rw [hr]; rfl
  refine ⟨?_, ?_, rfl⟩
  · intro he
    rw [hp, hiff.2 he, List.getElem?_modify_eq]
    rw [hiff.2 he] at hrd
    rw [hrd]; rfl
  · intro hne
    rw [hp, List.getElem?_modify_ne _ _ (fun e => hne (hiff.1 e.symm))]
    exact hrd

theorem updateTable_spec {s : St F V} {fs : List Fam} (h : Inv s fs) (x y : Nat) (tx ty ty' : Table F V)
    (f : Table F V → Except Err (Table F V)) (hx : s.table x = some tx) (hy : s.table y = some ty) (hf : f ty = .ok ty') :
    (tOf fs x = tOf fs y → (s.updateTable y f).table x = some ty') ∧
    (tOf fs x ≠ tOf fs y → (s.updateTable y f).table x = some tx) := by
  obtain ⟨r, hr, hrd⟩ := Option.bind_eq_some_iff.1 hx
  obtain ⟨q, hq, hqd⟩ := Option.bind_eq_some_iff.1 hy
  obtain ⟨t, ht, htx⟩ := Option.bind_eq_some_iff.1 hrd
  obtain ⟨u, hu, huy⟩ := Option.bind_eq_some_iff.1 hqd
  obtain ⟨f1, hf1, -, e1⟩ := fam_of_geom h hr
  obtain ⟨g1, hg1, -, e2⟩ := fam_of_geom h hq
  obtain ⟨t', ht'⟩ := Option.isSome_iff_exists.1 ((h.tabs x r f1 hr hf1).1 (by rw [ht]; rfl))
  obtain ⟨u', hu'⟩ := Option.isSome_iff_exists.1 ((h.tabs y q g1 hq hg1).1 (by rw [hu]; rfl))
  have hiff := (h.same x y r q f1 g1 hr hq hf1 hg1).2 t u t' u' ht hu ht' hu'
  have hs : s.updateTable y f = { s with tabs := s.tabs.set u ty' } := by
    obtain ⟨qp, qt⟩ := q
    dsimp only at hu
    subst hu
    unfold St.updateTable
    rw [hq]
    dsimp only
    rw [huy]
    dsimp only
    rw [hf]
  have hp : St.table { s with tabs := s.tabs.set u ty' } x = (s.tabs.set u ty')[t]? := by
    show ((s.geom x).bind fun r => r.tab.bind fun t => (s.tabs.set u ty')[t]?) = _
    rw [hr]
    show (r.tab.bind fun t => (s.tabs.set u ty')[t]?) = _
    rw [ht]; rfl
  rw [hs, e1, e2, ht', hu']
  constructor
  · intro e
    cases e
    rw [hp, hiff.2 rfl, List.getElem?_set_self ((h.refs y q hq).2 u hu)]
  · intro hne
    rw [hp, List.getElem?_set_ne (fun e => hne (by rw [hiff.1 e.symm]))]
    exact htx

theorem updateTable_props (s : St F V) (y : Nat) (f : Table F V → Except Err (Table F V)) (x : Nat) :
    (s.updateTable y f).props x = s.props x := by
  unfold St.updateTable
  split
  · split
    · split
      · rfl
      · rfl
    · rfl
  · rfl

/-- C122: after any history, assigning to a point of `y` is seen in the table of `x` exactly if the two are of one family, and never in
properties. -/
theorem C122_assigned_points (ops : List (Op F V)) (x y i : Nat) (p : List (F × Option V)) (ord : List F) (tx ty ty' : Table F V)
    (hx : (St.run ops).table x = some tx) (hy : (St.run ops).table y = some ty) (hok : setPoint ty i p ord = .ok ty') :
    (tOf (famRun ops) x = tOf (famRun ops) y → (St.run (ops ++ [.setPoint y i p ord])).table x = some ty') ∧
    (tOf (famRun ops) x ≠ tOf (famRun ops) y → (St.run (ops ++ [.setPoint y i p ord])).table x = some tx) ∧
    (St.run (ops ++ [.setPoint y i p ord])).props x = (St.run ops).props x := by
  have hrun : St.run (ops ++ [.setPoint y i p ord]) = (St.run ops).updateTable y fun t => setPoint t i p ord := by
    unfold St.run; rw [List.foldl_append]; rfl
  rw [hrun]
  obtain ⟨a, b⟩ := updateTable_spec (inv_run ops) x y tx ty ty' (fun t => setPoint t i p ord) hx hy hok
  exact ⟨a, b, updateTable_props _ _ _ _⟩

/-- C122: the same for `setfield` on the table of `y`. -/
theorem C122_fields (ops : List (Op F V)) (x y : Nat) (f : F) (vs : List (Option V)) (tx ty ty' : Table F V)
    (hx : (St.run ops).table x = some tx) (hy : (St.run ops).table y = some ty) (hok : ty.setfield f vs = .ok ty') :
    (tOf (famRun ops) x = tOf (famRun ops) y → (St.run (ops ++ [.setField y f vs])).table x = some ty') ∧
    (tOf (famRun ops) x ≠ tOf (famRun ops) y → (St.run (ops ++ [.setField y f vs])).table x = some tx) ∧
    (St.run (ops ++ [.setField y f vs])).props x = (St.run ops).props x := by
  have hrun : St.run (ops ++ [.setField y f vs]) = (St.run ops).updateTable y fun t => t.setfield f vs := by
    unfold St.run; rw [List.foldl_append]; rfl
  rw [hrun]
  obtain ⟨a, b⟩ := updateTable_spec (inv_run ops) x y tx ty ty' (fun t => t.setfield f vs) hx hy hok
  exact ⟨a, b, updateTable_props _ _ _ _⟩

/-- Geometries keep what they refer to when another is made. -/
theorem kept (s : St F V) (o : Option G) (d : List (List (F × Option V))) (t : List (Table F V)) (x : Nat)
    (hd : ∃ d', d = s.dicts ++ d') (ht : ∃ t', t = s.tabs ++ t') (a : List (F × Option V)) (hp : s.props x = some a) :
    St.props ⟨s.geoms ++ [o], d, t⟩ x = some a ∧ ∀ b, s.table x = some b → St.table ⟨s.geoms ++ [o], d, t⟩ x = some b := by
  obtain ⟨d', rfl⟩ := hd
  obtain ⟨t', rfl⟩ := ht
  obtain ⟨r, hr, hrd⟩ := Option.bind_eq_some_iff.1 hp
  have hlt : x ≠ s.geoms.length := by
    rintro rfl
    unfold St.geom at hr
    simp at hr
  have hg : St.geom (⟨s.geoms ++ [o], s.dicts ++ d', s.tabs ++ t'⟩ : St F V) x = some r := by
    rw [geom_append s s.geoms o _ _ rfl, if_neg hlt, hr]
  constructor
  · show ((St.geom (⟨s.geoms ++ [o], s.dicts ++ d', s.tabs ++ t'⟩ : St F V) x).bind fun r => (s.dicts ++ d')[r.props]?) = some a
    rw [hg]
    show (s.dicts ++ d')[r.props]? = some a
    rw [List.getElem?_append_left (List.getElem?_eq_some_iff.1 hrd).1]
    exact hrd
  · intro b hb
    obtain ⟨r', hr', hrt⟩ := Option.bind_eq_some_iff.1 hb
    rw [hr] at hr'
    cases hr'
    obtain ⟨u, hu, hub⟩ := Option.bind_eq_some_iff.1 hrt
    show ((St.geom (⟨s.geoms ++ [o], s.dicts ++ d', s.tabs ++ t'⟩ : St F V) x).bind fun r => r.tab.bind fun t => (s.tabs ++ t')[t]?) = some b
    rw [hg]
    show (r.tab.bind fun t => (s.tabs ++ t')[t]?) = some b
    rw [hu]
    show (s.tabs ++ t')[u]? = some b
    rw [List.getElem?_append_left (List.getElem?_eq_some_iff.1 hub).1]
    exact hub

/-- The calls that make geometries. -/
def Op.makes : Op F V → Prop
  | .setProp _ _ _ | .setPoint _ _ _ _ | .setField _ _ _ => False
  | _ => True

/-- C122: making a geometry out of others changes none of them. -/
theorem C122_made (ops : List (Op F V)) (op : Op F V) (hm : op.makes) (x : Nat) (a : List (F × Option V))
    (hp : (St.run ops).props x = some a) :
    (St.run (ops ++ [op])).props x = some a ∧ ∀ b, (St.run ops).table x = some b → (St.run (ops ++ [op])).table x = some b := by
  have hrun : St.run (ops ++ [op]) = (St.run ops).step op := by unfold St.run; rw [List.foldl_append]; rfl
  rw [hrun]
  generalize St.run ops = s at *
  have same : ∃ d', s.dicts = s.dicts ++ d' := ⟨[], by simp⟩
  have same' : ∃ d', s.tabs = s.tabs ++ d' := ⟨[], by simp⟩
  cases op with
  | create p d =>
    cases d with
    | none => exact kept s _ _ _ x ⟨_, rfl⟩ same' a hp
    | some t => exact kept s _ _ _ x ⟨_, rfl⟩ ⟨_, rfl⟩ a hp
  | derive g => exact kept s _ _ _ x same same' a hp
  | move g => exact kept s _ _ _ x same same' a hp
  | moveParts g n keys ord =>
    unfold St.step
    dsimp only
    split
    · exact kept s _ _ _ x same same' a hp
    · split
      · split
        · exact kept s _ _ _ x same ⟨_, rfl⟩ a hp
        · exact kept s _ _ _ x same same' a hp
      · exact kept s _ _ _ x same same' a hp
  | slice g rows =>
    unfold St.step
    dsimp only
    split
    · split
      · exact kept s _ _ _ x same ⟨_, rfl⟩ a hp
      · exact kept s _ _ _ x same same' a hp
    · exact kept s _ _ _ x same same' a hp
  | part g i =>
    unfold St.step
    dsimp only
    split
    · split
      · exact kept s _ _ _ x ⟨_, rfl⟩ same' a hp
      · exact kept s _ _ _ x same same' a hp
    · exact kept s _ _ _ x same same' a hp
  | withTable g =>
    unfold St.step
    dsimp only
    split
    · exact kept s _ _ _ x ⟨_, rfl⟩ same' a hp
    · exact kept s _ _ _ x same same' a hp
  | setProp g k v => exact absurd hm id
  | setPoint g i p ord => exact absurd hm id
  | setField g f vs => exact absurd hm id

/-- C122, a case of sharing: a shifted `Multipoint` and its original are one family for the table, and assigning a point of the
shifted one changes the attributes of the original. -/
theorem C122_shared_shifted :
    ∃ (ops : List (Op String Nat)) (t t' : Table String Nat), (St.run ops).table 0 = some t ∧
      (St.run (ops ++ [.move 0, .setPoint 1 0 [("a", some 9)] ["a"]])).table 0 = some t' ∧ t.data = [[some 1]] ∧ t'.data = [[some 9]] :=
  ⟨[.create [] (some ⟨["a"], [[some 1]]⟩)], ⟨["a"], [[some 1]]⟩, ⟨["a"], [[some 9]]⟩, rfl, rfl, rfl, rfl⟩

/-- C122, a case of sharing: a property set on a vertex of a line appears on the line. -/
theorem C122_shared_vertex :
    ∃ (ops : List (Op String Nat)), (St.run ops).props 0 = some [("name", some 1)] ∧
      (St.run (ops ++ [.derive 0, .setProp 1 "elevation" (some 5)])).props 0 = some [("name", some 1), ("elevation", some 5)] :=
  ⟨[.create [("name", some 1)] none], rfl, rfl⟩

/-- The history of the examples: a multipoint with two rows, its slice, an item, a shifted copy, a property set on the slice. -/
def exOps : List (Op String Nat) :=
  [.create [("n", some 1)] (some ⟨["a"], [[some 1], [some 2]]⟩), .slice 0 [1], .part 0 1, .move 0, .setProp 1 "m" (some 7)]

/- Property: the slice and the shifted copy see it, the item does not. -/
example : (St.run exOps).props 0 = some [("n", some 1), ("m", some 7)] ∧ (St.run exOps).props 3 = some [("n", some 1), ("m", some 7)] ∧
    (St.run exOps).props 2 = some [("a", some 2), ("n", some 1)] ∧ (St.run exOps).table 1 = some ⟨["a"], [[some 2]]⟩ := ⟨rfl, rfl, rfl, rfl⟩

/- The theorems meet both cases on it. -/
example : pOf (famRun exOps) 0 = pOf (famRun exOps) 1 ∧ pOf (famRun exOps) 0 ≠ pOf (famRun exOps) 2 ∧
    tOf (famRun exOps) 0 = tOf (famRun exOps) 3 ∧ tOf (famRun exOps) 0 ≠ tOf (famRun exOps) 1 := by decide

example : (St.run (exOps ++ [.setPoint 3 0 [("a", some 5)] ["a"]])).table 0 = some ⟨["a"], [[some 5], [some 2]]⟩ ∧
    (St.run (exOps ++ [.setPoint 1 0 [("a", some 5)] ["a"]])).table 0 = some ⟨["a"], [[some 1], [some 2]]⟩ :=
  ⟨((C122_assigned_points exOps 0 3 0 _ _ _ _ _ rfl rfl rfl).1 (by decide)).trans rfl,
    ((C122_assigned_points exOps 0 1 0 _ _ _ _ _ rfl rfl rfl).2.1 (by decide)).trans rfl⟩

example : (St.run (exOps ++ [.setField 3 "b" [none, none]])).table 0 = some ⟨["a", "b"], [[some 1, none], [some 2, none]]⟩ :=
  ((C122_fields exOps 0 3 "b" [none, none] _ _ _ rfl rfl rfl).1 (by decide)).trans rfl

example : (St.run (exOps ++ [.setProp 2 "n" none])).props 0 = some [("n", some 1), ("m", some 7)] :=
  (C122_properties exOps 0 2 "n" none _ _ rfl rfl).2.1 (by decide)

example : (St.run (exOps ++ [.moveParts 0 2 ["a", "n", "m"] ["a"]])).table 0 = some ⟨["a"], [[some 1], [some 2]]⟩ :=
  (C122_made exOps (.moveParts 0 2 ["a", "n", "m"] ["a"]) trivial 0 _ rfl).2 _ rfl

/-! ### C123 -/

theorem collect_ok {α : Type _} (f : Nat → Except Err α) (n : Nat) : ∀ (k : Nat), (∀ i, k ≤ i → i < k + n → ∃ a, f i = .ok a) →
    ∃ r, collect f k n = .ok r ∧ r.length = n ∧ ∀ i a, r[i]? = some a → f (k + i) = .ok a := by
  induction n with
  | zero => intro k _; exact ⟨[], rfl, rfl, by simp⟩
  | succ n ih =>
    intro k h
    obtain ⟨a, ha⟩ := h k (Nat.le_refl _) (by omega)
    obtain ⟨r, hr, hl, hi⟩ := ih (k + 1) (fun i h1 h2 => h i (by omega) (by omega))
    refine ⟨a :: r, ?_, by simp [hl], ?_⟩
    · unfold collect
      rw [ha]; dsimp only; rw [hr]
    · intro i b hb
      cases i with
      | zero => simp at hb; rw [← hb]; exact ha
      | succ i =>
        rw [List.getElem?_cons_succ] at hb
        have := hi i b hb
        rwa [show k + 1 + i = k + (i + 1) by omega] at this

theorem mem_keys_iff {W : Type _} (d : List (F × W)) (k : F) : k ∈ d.map Prod.fst ↔ ∃ v, d.lookup k = some v := by
  rw [← Option.isSome_iff_exists, Option.isSome_iff_ne_none, ne_eq, List.lookup_eq_none_iff, List.mem_map]
  constructor
  · rintro ⟨p, hp, rfl⟩ h
    simpa using h p hp
  · intro h
    by_contra hne
    apply h
    intro p hp
    simp only [bne_iff_ne, ne_eq]
    intro e
    exact hne ⟨p, hp, e.symm⟩

/-- C123, what a moved `Multiline` or `Multipolygon` carries: its table has the old fields and the collection's own properties, and each own
property replaces the column of the same name. -/
theorem C123_moved_partial (t : Table F V) (h : t.WF) (own : List (F × Option V)) (ho : (own.map Prod.fst).Nodup)
    (hne : 0 < t.data.length) (keys ord : List F) (hk : IsOrder keys (t.fields ++ own.map Prod.fst)) (hord : IsOrder ord t.fields) :
    ∃ t', movedTable t own t.data.length keys ord = .ok t' ∧ t'.WF ∧ t'.data.length = t.data.length ∧
      (∀ f, f ∈ t'.fields ↔ f ∈ t.fields ∨ f ∈ own.map Prod.fst) ∧
      (∀ f v, own.lookup f = some v → t'.getfield f = .ok (List.replicate t.data.length v)) ∧
      (∀ f, f ∉ own.map Prod.fst → t'.getfield f = t.getfield f) := by
  have hpart := fun (i : Nat) (hi : i < t.data.length) => C58_part_attributes_partial t h own ho i hi
  obtain ⟨ps, hps, hl, hi⟩ := collect_ok (fun (i : Nat) => partProperties t own (i : Int)) t.data.length 0
    (fun i _ h2 => by obtain ⟨p, hp, -⟩ := hpart i (by omega); exact ⟨p, hp⟩)
  have hlook : ∀ (i : Nat) (p : List (F × Option V)), ps[i]? = some p → i < t.data.length ∧
      ∀ k, p.lookup k = match own.lookup k with | some v => some v | none => t.cell i k := by
    intro i p hp
    have hlt : i < t.data.length := by rw [← hl]; exact (List.getElem?_eq_some_iff.1 hp).1
    obtain ⟨q, hq, hq'⟩ := hpart i hlt
    have := hi i p hp
    rw [Nat.zero_add] at this
    rw [hq] at this
    cases this
    exact ⟨hlt, hq'⟩
  have hcell : ∀ (i : Nat) (f : F), i < t.data.length → f ∈ t.fields → ∃ v, t.cell i f = some v := by
    intro i f hlt hf
    obtain ⟨c, -, hc, hcc⟩ := Table.getfield_spec h hf
    have : i < c.length := by rw [hc]; exact hlt
    exact ⟨c[i], by rw [← hcc i, List.getElem?_eq_getElem this]⟩
  obtain ⟨d, hd, hdk, hdv⟩ := joinLoop_ok ps keys (by
    intro k hkk p hp
    obtain ⟨i, hip⟩ := List.mem_iff_getElem?.1 hp
    obtain ⟨hlt, hlk⟩ := hlook i p hip
    rw [mem_keys_iff, hlk k]
    cases hown : own.lookup k with
    | some v => exact ⟨v, rfl⟩
    | none =>
      have : k ∈ t.fields := by
        rcases List.mem_append.1 ((hk.2 k).1 hkk) with h1 | h1
        · exact h1
        · obtain ⟨v, hv⟩ := (mem_keys_iff own k).1 h1
          rw [hown] at hv; cases hv
      exact hcell i k hlt this)
  have hm : mergeProperties ps keys = .ok d := by
    unfold mergeProperties
    rw [if_neg (by omega), hd]
  obtain ⟨t', ht', hw, hl', hf', hg'⟩ := C30_updated_with_dict_partial t h hne d (by rw [hdk]; exact hk.1)
    (fun p hp => by rw [(hdv p hp).1, hl]) [] ord hord
  refine ⟨t', ?_, hw, hl', ?_, ?_, ?_⟩
  · unfold movedTable
    rw [hps]; dsimp only; rw [hm]; exact ht'
  · intro f
    rw [hf', hdk, hk.2 f, List.mem_append]
    tauto
  · intro f v hv
    have hfd : f ∈ d.map Prod.fst := by
      rw [hdk, hk.2 f, List.mem_append]
      exact Or.inr ((mem_keys_iff own f).2 ⟨v, hv⟩)
    obtain ⟨vs, hvs⟩ := (mem_keys_iff d f).1 hfd
    have hg := hg' f
    rw [hvs] at hg
    rw [hg]
    show Except.ok vs = Except.ok (List.replicate t.data.length v)
    have hmem : (f, vs) ∈ d := by
      obtain ⟨l₁, l₂, hll, -⟩ := List.lookup_eq_some_iff.1 hvs
      rw [hll]; simp
    obtain ⟨hlen, hget⟩ := hdv _ hmem
    congr 1
    apply List.ext_getElem?
    intro i
    rw [hget i]
    by_cases hlt : i < t.data.length
    · rw [List.getElem?_eq_getElem (by omega : i < ps.length)]
      obtain ⟨-, hlk⟩ := hlook i ps[i] (List.getElem?_eq_getElem (by omega))
      show ps[i].lookup f = _
      rw [hlk f, hv, List.getElem?_replicate, if_pos hlt]
    · rw [List.getElem?_eq_none_iff.2 (by omega : ps.length ≤ i), List.getElem?_replicate, if_neg hlt]; rfl
  · intro f hf
    have hown : own.lookup f = none := by
      by_contra hne'
      obtain ⟨v, hv⟩ := Option.ne_none_iff_exists'.1 hne'
      exact hf ((mem_keys_iff own f).2 ⟨v, hv⟩)
    have hg := hg' f
    cases hvs : d.lookup f with
    | none => rw [hvs] at hg; exact hg
    | some vs =>
      rw [hvs] at hg
      have hft : f ∈ t.fields := by
        have : f ∈ d.map Prod.fst := (mem_keys_iff d f).2 ⟨vs, hvs⟩
        rw [hdk, hk.2 f, List.mem_append] at this
        exact this.resolve_right hf
      have hmem : (f, vs) ∈ d := by
        obtain ⟨l₁, l₂, hll, -⟩ := List.lookup_eq_some_iff.1 hvs
        rw [hll]; simp
      obtain ⟨hlen, hget⟩ := hdv _ hmem
      obtain ⟨c, hc, hcl, hcc⟩ := Table.getfield_spec h hft
      rw [hg, hc]
      show Except.ok vs = Except.ok c
      congr 1
      apply List.ext_getElem?
      intro i
      rw [hget i, hcc i]
      by_cases hlt : i < t.data.length
      · rw [List.getElem?_eq_getElem (by omega : i < ps.length)]
        obtain ⟨-, hlk⟩ := hlook i ps[i] (List.getElem?_eq_getElem (by omega))
        show ps[i].lookup f = _
        rw [hlk f, hown]
      · rw [List.getElem?_eq_none_iff.2 (by omega : ps.length ≤ i)]
        unfold Table.cell
        rw [List.getElem?_eq_none_iff.2 (by omega : t.data.length ≤ i)]; rfl

/-- C123: a collection without properties of its own keeps every column when it is moved. -/
theorem C123_kept_partial (t : Table F V) (h : t.WF) (hne : 0 < t.data.length) (keys ord : List F) (hk : IsOrder keys t.fields)
    (hord : IsOrder ord t.fields) :
    ∃ t', movedTable t [] t.data.length keys ord = .ok t' ∧ t'.data.length = t.data.length ∧ (∀ f, f ∈ t'.fields ↔ f ∈ t.fields) ∧
      ∀ f, t'.getfield f = t.getfield f := by
  obtain ⟨t', h1, -, h3, h4, -, h6⟩ := C123_moved_partial t h [] (by simp) hne keys ord (by simpa using hk) hord
  exact ⟨t', h1, h3, fun f => by rw [h4 f]; simp, fun f => h6 f (by simp)⟩

/-- C123 fails for a collection whose own property has the name of a column: moving it overwrites the column. -/
theorem C123_violated_column :
    movedTable (⟨["name"], [[some 1], [some 2]]⟩ : Table String Nat) [("name", some 7)] 2 ["name"] ["name"] =
      .ok ⟨["name"], [[some 7], [some 7]]⟩ := rfl

/-- C123 fails for a collection with any property of its own: moving it adds a column. -/
theorem C123_violated_added :
    movedTable (⟨["a"], [[some 1], [some 2]]⟩ : Table String Nat) [("name", some 7)] 2 ["a", "name"] ["a"] =
      .ok ⟨["a", "name"], [[some 1, some 7], [some 2, some 7]]⟩ := rfl

example : ∃ t', movedTable exTable [] exTable.data.length ["b", "a"] ["a", "b"] = .ok t' ∧ t'.data.length = exTable.data.length ∧
    (∀ f, f ∈ t'.fields ↔ f ∈ exTable.fields) ∧ ∀ f, t'.getfield f = exTable.getfield f :=
  C123_kept_partial exTable exTable_wf (by decide) ["b", "a"] ["a", "b"] ⟨by decide, by simp [exTable]; tauto⟩ ⟨by decide, by simp [exTable]⟩

end Karta.Share
