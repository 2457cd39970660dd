import Verif.Vec.Cache
import Verif.Vec.QuadTreeProps

/-!
Properties C47 (cached attributes equal recomputed ones) and C83 (searches see the current
vertices).
-/

namespace Karta.Cache
open Karta Karta.Vec

variable {Crs Len : Type}

/-! ### Specification -/

/-- Spec: two coordinate systems that compare equal are interchangeable. -/
structure Lawful (w : World Crs Len) : Prop where
  refl : ∀ a, w.ceq a a = true
  transform : ∀ a b, w.ceq a b = true → ∀ s vs, w.transform s a vs = w.transform s b vs
  geo : ∀ a b, w.ceq a b = true → w.geo a = w.geo b
  ceq : ∀ a b, w.ceq a b = true → ∀ c, w.ceq a c = w.ceq b c

/-- Spec: the box of the vertices `vs`, given in system `own`, in the system asked for: reproject
if that is another system, then take the dateline-aware box for geographical systems and the
coordinate-wise box otherwise. -/
def boxOf (w : World Crs Len) (own : Crs) (vs : List Pt) : Option Crs → Except Err (Option Box)
  | none => .ok (if w.geo own then w.dateBox vs else bbox vs)
  | some c =>
    if w.ceq c own then .ok (if w.geo own then w.dateBox vs else bbox vs)
    else (w.transform own c vs).map fun us => if w.geo c then w.dateBox us else bbox us

/-- Spec: `extent` lists the x limits first, then the y limits. -/
def asExtent (b : Option Box) : Option (ℚ × ℚ × ℚ × ℚ) := b.map fun b => (b.xmin, b.xmax, b.ymin, b.ymax)

/-- Spec: what an operation returns when nothing is ever cached, from the current vertices.  A line
that has been extended (`nd`) can compute nothing any more. -/
inductive Recomputed (w : World Crs Len) (g : Obj Crs Len) : Op Crs → Out Len → Prop
  | bbox {a c} : bind a = .ok c → g.nd = false → Recomputed w g (.bbox a) (.bbox (boxOf w g.crs g.verts c))
  | extent {a c} : bind a = .ok c → g.nd = false →
      Recomputed w g (.extent a) (.extent ((boxOf w g.crs g.verts c).map asExtent))
  | length : g.kind = .line → g.nd = false → Recomputed w g .length (.length (.ok (w.len g.crs g.verts)))
  | noLength : g.kind = .multipoint → Recomputed w g .length (.length (.error .attributeError))
  | badBbox {a e} : bind a = .error e → Recomputed w g (.bbox a) (.bbox (.error e))
  | badExtent {a e} : bind a = .error e → Recomputed w g (.extent a) (.extent (.error e))
  | arrayBbox {a e} : g.nd = true → Recomputed w g (.bbox a) (.bbox (.error e))
  | arrayExtent {a e} : g.nd = true → Recomputed w g (.extent a) (.extent (.error e))
  | arrayLength {e} : g.nd = true → Recomputed w g .length (.length (.error e))
  | extend {vs r} : Recomputed w g (.extend vs) (.unit r)
  | setItem {i p r} : Recomputed w g (.setItem i p) (.unit r)

/-- Spec: the operation leaves the vertices alone or empties the cache. -/
def Op.NotAssign : Op Crs → Prop
  | .setItem _ _ => False
  | _ => True

/-! ### Proofs -/

/-- The box computed without the cache. -/
def now (w : World Crs Len) (g : Obj Crs Len) (a : Args Crs) : Except Err (Option Box) :=
  match bind a with
  | .error e => .error e
  | .ok c => bodyMulti w g c

structure Inv (w : World Crs Len) (g : Obj Crs Len) : Prop where
  bbox : ∀ a b, g.cBbox = some (a, b) → now w g a = .ok b
  ext : ∀ a e, g.cExt = some (a, e) → (now w g a).map reorder = .ok e
  len : ∀ v, g.cLen = some v → g.nd = false ∧ v = w.len g.crs g.verts

theorem bodyMulti_congr (w : World Crs Len) (g g' : Obj Crs Len) (h1 : g'.crs = g.crs)
    (h2 : g'.verts = g.verts) (h3 : g'.nd = g.nd) (c : Option Crs) : bodyMulti w g' c = bodyMulti w g c := by
  unfold bodyMulti source
  rw [h1, h2, h3]

theorem now_congr (w : World Crs Len) (g g' : Obj Crs Len) (h1 : g'.crs = g.crs)
    (h2 : g'.verts = g.verts) (h3 : g'.nd = g.nd) (a : Args Crs) : now w g' a = now w g a := by
  unfold now
  cases bind a with
  | error e => rfl
  | ok c => exact bodyMulti_congr w g g' h1 h2 h3 c

theorem bodyMulti_optEq (w : World Crs Len) (hw : Lawful w) (g : Obj Crs Len) : ∀ c d : Option Crs,
    optEq w c d = true → bodyMulti w g c = bodyMulti w g d
  | none, none, _ => rfl
  | none, some _, h => by cases h
  | some _, none, h => by cases h
  | some a, some b, h => by
    have h : w.ceq a b = true := h
    unfold bodyMulti source
    simp only [hw.ceq a b h g.crs, hw.transform a b h]
    by_cases h1 : w.ceq b g.crs = true
    · simp [h1]
    · by_cases h2 : g.nd = true
      · simp [h1, h2]
      · simp only [h1, h2, Bool.false_eq_true, if_false]
        cases w.transform g.crs b g.verts with
        | error e => rfl
        | ok vs => simp only [hw.geo a b h]

theorem now_argsEq (w : World Crs Len) (hw : Lawful w) (g : Obj Crs Len) (a b : Args Crs)
    (h : argsEq w a b = true) : now w g a = now w g b := by
  obtain ⟨pa, ka⟩ := a
  obtain ⟨pb, kb⟩ := b
  simp only [argsEq, Bool.and_eq_true] at h
  obtain ⟨hp, hk⟩ := h
  unfold now bind
  match pa, pb, hp with
  | [], [], _ =>
    match ka, kb, hk with
    | none, none, _ => rfl
    | some c, some d, hk => exact bodyMulti_optEq w hw g c d hk
  | [c], [d], hp =>
    simp only [posEq, Bool.and_true] at hp
    match ka, kb, hk with
    | none, none, _ => exact bodyMulti_optEq w hw g c d hp
    | some _, some _, _ => rfl
  | _ :: _ :: _, _ :: _ :: _, _ => rfl
  | [_], _ :: _ :: _, hp => simp [posEq] at hp
  | _ :: _ :: _, [_], hp => simp [posEq] at hp

/-- What every cached call guarantees. -/
structure Good (w : World Crs Len) (g g' : Obj Crs Len) : Prop where
  kind : g'.kind = g.kind
  crs : g'.crs = g.crs
  verts : g'.verts = g.verts
  nd : g'.nd = g.nd
  inv : Inv w g'

theorem Good.refl' (w : World Crs Len) {g : Obj Crs Len} (h : Inv w g) : Good w g g := ⟨rfl, rfl, rfl, rfl, h⟩

theorem Inv.setBbox (w : World Crs Len) {g : Obj Crs Len} (h : Inv w g) {a b} (e : now w g a = .ok b) :
    Inv w { g with cBbox := some (a, b) } := by
  refine ⟨fun a' b' h' => ?_, fun a' e' h' => ?_, h.len⟩
  · have h' : some (a, b) = some (a', b') := h'
    cases h'
    rw [now_congr w g { g with cBbox := some (a, b) } rfl rfl rfl]
    exact e
  · rw [now_congr w g { g with cBbox := some (a, b) } rfl rfl rfl]
    exact h.ext a' e' h'

theorem Inv.setExt (w : World Crs Len) {g : Obj Crs Len} (h : Inv w g) {a e} (h0 : (now w g a).map reorder = .ok e) :
    Inv w { g with cExt := some (a, e) } := by
  refine ⟨fun a' b' h' => ?_, fun a' e' h' => ?_, h.len⟩
  · rw [now_congr w g { g with cExt := some (a, e) } rfl rfl rfl]
    exact h.bbox a' b' h'
  · have h' : some (a, e) = some (a', e') := h'
    cases h'
    rw [now_congr w g { g with cExt := some (a, e) } rfl rfl rfl]
    exact h0

theorem callMulti_good (w : World Crs Len) (hw : Lawful w) (g : Obj Crs Len) (hI : Inv w g) (a : Args Crs) :
    (callMulti w g a).1 = now w g a ∧ Good w g (callMulti w g a).2 := by
  have miss : ∀ r : Except Err (Option Box) × Obj Crs Len, r = (match bind a with
      | .error e => (.error e, g)
      | .ok c => match bodyMulti w g c with
        | .error e => (.error e, g)
        | .ok b => (.ok b, { g with cBbox := some (a, b) })) → r.1 = now w g a ∧ Good w g r.2 := by
    intro r hr
    cases hb : bind a with
    | error e => simp only [hb] at hr; subst hr; exact ⟨by simp [now, hb], Good.refl' w hI⟩
    | ok c =>
      cases hm : bodyMulti w g c with
      | error e => simp only [hb, hm] at hr; subst hr; exact ⟨by simp [now, hb, hm], Good.refl' w hI⟩
      | ok b =>
        simp only [hb, hm] at hr; subst hr
        have : now w g a = .ok b := by simp [now, hb, hm]
        exact ⟨this.symm, rfl, rfl, rfl, rfl, hI.setBbox w this⟩
  unfold callMulti
  cases hc : g.cBbox with
  | none => exact miss _ rfl
  | some p =>
    obtain ⟨a', b⟩ := p
    by_cases he : argsEq w a a' = true
    · simp only [he, if_true]
      exact ⟨by rw [now_argsEq w hw g a a' he, hI.bbox a' b hc], Good.refl' w hI⟩
    · simp only [he, Bool.false_eq_true, if_false]
      exact miss _ rfl

theorem now_kw (w : World Crs Len) (g : Obj Crs Len) (c : Option Crs) : now w g ⟨[], some c⟩ = bodyMulti w g c := rfl

theorem bodyLine_good (w : World Crs Len) (hw : Lawful w) (g : Obj Crs Len) (hI : Inv w g) (c : Option Crs) :
    (bodyLine w g c).1 = bodyMulti w g c ∧ Good w g (bodyLine w g c).2 := by
  unfold bodyLine
  cases hs : source w g c with
  | error e => exact ⟨by simp [bodyMulti, hs], Good.refl' w hI⟩
  | ok q =>
    obtain ⟨vs, cr⟩ := q
    by_cases hg : w.geo cr = true
    · simp only [hg, if_true]
      exact ⟨by simp [bodyMulti, hs, hg], Good.refl' w hI⟩
    · simp only [hg, Bool.false_eq_true, if_false]
      obtain ⟨h1, h2⟩ := callMulti_good w hw g hI ⟨[], some (some cr)⟩
      refine ⟨?_, h2⟩
      rw [h1, now_kw]
      have : source w g (some cr) = .ok (vs, cr) := by
        cases c with
        | none =>
          unfold source at hs ⊢
          by_cases hn : g.nd = true
          · simp [hn] at hs
          · simp only [hn, Bool.false_eq_true, if_false, Except.ok.injEq, Prod.mk.injEq] at hs
            obtain ⟨e1, e2⟩ := hs
            simp [← e2, hw.refl, hn, e1]
        | some c =>
          unfold source at hs ⊢
          by_cases hn : g.nd = true
          · by_cases hq : w.ceq c g.crs = true <;> simp [hn, hq] at hs
          · by_cases hq : w.ceq c g.crs = true
            · simp only [hn, hq, Bool.false_eq_true, if_false, if_true, Except.ok.injEq, Prod.mk.injEq] at hs
              obtain ⟨e1, e2⟩ := hs
              simp [← e2, hw.refl, hn, e1]
            · simp only [hn, hq, Bool.false_eq_true, if_false] at hs
              cases ht : w.transform g.crs c g.verts with
              | error e => simp [ht] at hs
              | ok us =>
                simp only [ht, Except.ok.injEq, Prod.mk.injEq] at hs
                obtain ⟨e1, e2⟩ := hs
                subst e1; subst e2
                simp [hq, hn, ht]
      simp only [bodyMulti, hs, this]

theorem callBbox_good (w : World Crs Len) (hw : Lawful w) (g : Obj Crs Len) (hI : Inv w g) (a : Args Crs) :
    (callBbox w g a).1 = now w g a ∧ Good w g (callBbox w g a).2 := by
  unfold callBbox
  cases hk : g.kind with
  | multipoint => exact callMulti_good w hw g hI a
  | line =>
    have miss : ∀ r : Except Err (Option Box) × Obj Crs Len, r = (match bind a with
        | .error e => (.error e, g)
        | .ok c => match bodyLine w g c with
          | (.error e, g') => (.error e, g')
          | (.ok b, g') => (.ok b, { g' with cBbox := some (a, b) })) → r.1 = now w g a ∧ Good w g r.2 := by
      intro r hr
      cases hb : bind a with
      | error e => simp only [hb] at hr; subst hr; exact ⟨by simp [now, hb], Good.refl' w hI⟩
      | ok c =>
        obtain ⟨h1, h2⟩ := bodyLine_good w hw g hI c
        cases hm : bodyLine w g c with
        | mk v g' =>
          rw [hm] at h1 h2
          cases v with
          | error e => simp only [hb, hm] at hr; subst hr; exact ⟨by simp [now, hb, ← h1], h2⟩
          | ok b =>
            simp only [hb, hm] at hr; subst hr
            have : now w g' a = .ok b := by
              rw [now_congr w g g' h2.crs h2.verts h2.nd]; simp [now, hb, ← h1]
            exact ⟨by simp [now, hb, ← h1], h2.kind, h2.crs, h2.verts, h2.nd, h2.inv.setBbox w this⟩
    cases hc : g.cBbox with
    | none => exact miss _ rfl
    | some p =>
      obtain ⟨a', b⟩ := p
      by_cases he : argsEq w a a' = true
      · simp only [he, if_true]
        exact ⟨by rw [now_argsEq w hw g a a' he, hI.bbox a' b hc], Good.refl' w hI⟩
      · simp only [he, Bool.false_eq_true, if_false]
        exact miss _ rfl

theorem callExtent_good (w : World Crs Len) (hw : Lawful w) (g : Obj Crs Len) (hI : Inv w g) (a : Args Crs) :
    (callExtent w g a).1 = (now w g a).map reorder ∧ Good w g (callExtent w g a).2 := by
  have miss : ∀ r : Except Err (Option (ℚ × ℚ × ℚ × ℚ)) × Obj Crs Len, r = (match bind a with
      | .error e => (.error e, g)
      | .ok c => match callBbox w g ⟨[], some c⟩ with
        | (.error e, g') => (.error e, g')
        | (.ok b, g') => (.ok (reorder b), { g' with cExt := some (a, reorder b) })) →
      r.1 = (now w g a).map reorder ∧ Good w g r.2 := by
    intro r hr
    cases hb : bind a with
    | error e => simp only [hb] at hr; subst hr; exact ⟨by simp [now, hb, Except.map], Good.refl' w hI⟩
    | ok c =>
      obtain ⟨h1, h2⟩ := callBbox_good w hw g hI ⟨[], some c⟩
      rw [now_kw] at h1
      cases hm : callBbox w g ⟨[], some c⟩ with
      | mk v g' =>
        rw [hm] at h1 h2
        cases v with
        | error e => simp only [hb, hm] at hr; subst hr; exact ⟨by simp [now, hb, ← h1, Except.map], h2⟩
        | ok b =>
          simp only [hb, hm] at hr; subst hr
          have : (now w g' a).map reorder = .ok (reorder b) := by
            rw [now_congr w g g' h2.crs h2.verts h2.nd]; simp [now, hb, ← h1, Except.map]
          exact ⟨by simp [now, hb, ← h1, Except.map], h2.kind, h2.crs, h2.verts, h2.nd, h2.inv.setExt w this⟩
  unfold callExtent
  cases hc : g.cExt with
  | none => exact miss _ rfl
  | some p =>
    obtain ⟨a', b⟩ := p
    by_cases he : argsEq w a a' = true
    · simp only [he, if_true]
      exact ⟨by rw [now_argsEq w hw g a a' he, hI.ext a' b hc], Good.refl' w hI⟩
    · simp only [he, Bool.false_eq_true, if_false]
      exact miss _ rfl

/-- The uncached computation agrees with the specification. -/
theorem bodyMulti_boxOf (w : World Crs Len) (g : Obj Crs Len) (hn : g.nd = false) (c : Option Crs) :
    bodyMulti w g c = boxOf w g.crs g.verts c := by
  unfold bodyMulti source boxOf
  cases c with
  | none => simp [hn]
  | some c =>
    by_cases hq : w.ceq c g.crs = true
    · simp [hn, hq]
    · simp only [hn, hq, Bool.false_eq_true, if_false]
      cases w.transform g.crs c g.verts <;> rfl

theorem bodyMulti_array (w : World Crs Len) (g : Obj Crs Len) (hn : g.nd = true) (c : Option Crs) :
    ∃ e, bodyMulti w g c = .error e := by
  unfold bodyMulti source
  cases c with
  | none => simp [hn]
  | some c => by_cases hq : w.ceq c g.crs = true <;> simp [hn, hq]

theorem step_good (w : World Crs Len) (hw : Lawful w) (g : Obj Crs Len) (hI : Inv w g) (o : Op Crs)
    (ho : o.NotAssign) : Recomputed w g o (step w g o).1 ∧ Inv w (step w g o).2 := by
  cases o with
  | setItem i p => exact ho.elim
  | bbox a =>
    obtain ⟨h1, h2⟩ := callBbox_good w hw g hI a
    refine ⟨?_, h2.inv⟩
    simp only [step, h1, now]
    cases hb : bind a with
    | error e => exact .badBbox hb
    | ok c =>
      by_cases hn : g.nd = true
      · obtain ⟨e, he⟩ := bodyMulti_array w g hn c
        simp only [he]; exact .arrayBbox hn
      · simp only [Bool.not_eq_true] at hn
        simp only [bodyMulti_boxOf w g hn c]
        exact .bbox hb hn
  | extent a =>
    obtain ⟨h1, h2⟩ := callExtent_good w hw g hI a
    refine ⟨?_, h2.inv⟩
    simp only [step, h1, now]
    cases hb : bind a with
    | error e => exact .badExtent hb
    | ok c =>
      by_cases hn : g.nd = true
      · obtain ⟨e, he⟩ := bodyMulti_array w g hn c
        simp only [he]; exact .arrayExtent hn
      · simp only [Bool.not_eq_true] at hn
        simp only [bodyMulti_boxOf w g hn c]
        exact .extent hb hn
  | length =>
    by_cases hk : g.kind = .line
    · cases hl : g.cLen with
      | some v =>
        obtain ⟨h1, h2⟩ := hI.len v hl
        have e : callLength w g = (.ok v, g) := by unfold callLength; rw [if_pos hk, hl]
        simp only [step, e]
        exact ⟨h2 ▸ .length hk h1, hI⟩
      | none =>
        by_cases hn : g.nd = true
        · have e : callLength w g = (.error .typeError, g) := by
            unfold callLength; rw [if_pos hk, hl]; exact if_pos hn
          simp only [step, e]
          exact ⟨.arrayLength hn, hI⟩
        · have e : callLength w g = (.ok (w.len g.crs g.verts), { g with cLen := some (w.len g.crs g.verts) }) := by
            unfold callLength; rw [if_pos hk, hl]; exact if_neg hn
          simp only [Bool.not_eq_true] at hn
          simp only [step, e]
          refine ⟨.length hk hn, ⟨fun a b h => ?_, fun a e h => ?_, fun v h => ?_⟩⟩
          · exact (now_congr w g { g with cLen := some (w.len g.crs g.verts) } rfl rfl rfl a).trans (hI.bbox a b h)
          · exact (congrArg _ (now_congr w g { g with cLen := some (w.len g.crs g.verts) } rfl rfl rfl a)).trans
              (hI.ext a e h)
          · cases h; exact ⟨hn, rfl⟩
    · have e : callLength w g = (.error .attributeError, g) := if_neg hk
      simp only [step, e]
      exact ⟨.noLength (by cases h : g.kind with | multipoint => rfl | line => exact absurd h hk), hI⟩
  | extend vs =>
    refine ⟨.extend, ?_⟩
    by_cases hk : g.kind = .line
    · by_cases he : (g.verts.isEmpty || vs.isEmpty) = true
      · have e : extend g vs = (.error .indexError, g) := by unfold extend; rw [if_pos hk]; exact if_pos he
        simp only [step, e]; exact hI
      · have e : extend g vs = (.ok (), { g with verts := g.verts ++ vs, nd := true, cBbox := none, cExt := none, cLen := none }) := by
          unfold extend; rw [if_pos hk]; exact if_neg he
        simp only [step, e]
        exact ⟨fun _ _ h => (by cases h), fun _ _ h => (by cases h), fun _ h => (by cases h)⟩
    · have e : extend g vs = (.error .attributeError, g) := if_neg hk
      simp only [step, e]; exact hI

theorem new_inv (w : World Crs Len) (k : Kind) (c : Crs) (vs : List Pt) : Inv w (Obj.new k c vs) :=
  ⟨fun _ _ h => (by cases h), fun _ _ h => (by cases h), fun _ h => (by cases h)⟩

theorem run_inv (w : World Crs Len) (hw : Lawful w) : ∀ (os : List (Op Crs)) (g : Obj Crs Len), Inv w g →
    (∀ o ∈ os, o.NotAssign) → Inv w (run w g os).2
  | [], _, hI, _ => hI
  | o :: os, g, hI, ho => run_inv w hw os _ (step_good w hw g hI o (ho o List.mem_cons_self)).2
      fun q hq => ho q (List.mem_cons_of_mem _ hq)

/-- C47, partial (assigning to members of a Multipoint is excluded).  Build a geometry; apply any
history of `bbox`, `extent` and `length` calls, with any mixture of arguments, and of `extend`;
then one more call.  It returns exactly what is recomputed from the current vertices and its
arguments: the cache is never observable. -/
theorem C47_recomputed_partial (w : World Crs Len) (hw : Lawful w) (k : Kind) (c : Crs) (vs : List Pt)
    (os : List (Op Crs)) (hos : ∀ o ∈ os, o.NotAssign) (o : Op Crs) (ho : o.NotAssign) :
    Recomputed w (run w (Obj.new k c vs) os).2 o (step w (run w (Obj.new k c vs) os).2 o).1 :=
  (step_good w hw _ (run_inv w hw os _ (new_inv w k c vs) hos) o ho).1

/-- The vertices and system of a geometry never change, except by `extend`. -/
theorem step_verts (w : World Crs Len) (hw : Lawful w) (g : Obj Crs Len) (hI : Inv w g) (o : Op Crs)
    (ho : o.NotAssign) (he : ∀ us, o ≠ .extend us) :
    (step w g o).2.verts = g.verts ∧ (step w g o).2.crs = g.crs ∧ (step w g o).2.nd = g.nd := by
  cases o with
  | setItem i p => exact ho.elim
  | extend us => exact absurd rfl (he us)
  | bbox a => have h := (callBbox_good w hw g hI a).2; exact ⟨h.verts, h.crs, h.nd⟩
  | extent a => have h := (callExtent_good w hw g hI a).2; exact ⟨h.verts, h.crs, h.nd⟩
  | length =>
    unfold step callLength
    by_cases hk : g.kind = .line
    · simp only [hk, if_true]
      cases hl : g.cLen with
      | some v => exact ⟨rfl, rfl, rfl⟩
      | none => by_cases hn : g.nd = true <;> simp [hn]
    · simp only [hk, if_false]; exact ⟨trivial, trivial, trivial⟩

theorem run_verts (w : World Crs Len) (hw : Lawful w) : ∀ (os : List (Op Crs)) (g : Obj Crs Len), Inv w g →
    (∀ o ∈ os, o.NotAssign ∧ ∀ us, o ≠ .extend us) →
    (run w g os).2.verts = g.verts ∧ (run w g os).2.crs = g.crs ∧ (run w g os).2.nd = g.nd
  | [], _, _, _ => ⟨rfl, rfl, rfl⟩
  | o :: os, g, hI, ho => by
    obtain ⟨h1, h2⟩ := ho o List.mem_cons_self
    obtain ⟨a, b, c⟩ := step_verts w hw g hI o h1 h2
    obtain ⟨a', b', c'⟩ := run_verts w hw os _ (step_good w hw g hI o h1).2 fun q hq => ho q (List.mem_cons_of_mem _ hq)
    exact ⟨a'.trans a, b'.trans b, c'.trans c⟩

/-- C47 for geometries that are only queried: whatever was asked before, `bbox()` of a planar
geometry is the coordinate-wise box of the vertices it was built from, and `bbox(crs=d)` for a
different planar system is the box of the reprojected vertices. -/
theorem C47_queries (w : World Crs Len) (hw : Lawful w) (k : Kind) (c d : Crs) (vs us : List Pt)
    (os : List (Op Crs)) (hos : ∀ o ∈ os, o.NotAssign ∧ ∀ x, o ≠ .extend x)
    (hc : w.geo c = false) (hd : w.geo d = false) (hne : w.ceq d c = false) (ht : w.transform c d vs = .ok us) :
    (callBbox w (run w (Obj.new k c vs) os).2 ⟨[], none⟩).1 = .ok (bbox vs) ∧
    (callBbox w (run w (Obj.new k c vs) os).2 ⟨[], some (some d)⟩).1 = .ok (bbox us) ∧
    (callBbox w (run w (Obj.new k c vs) os).2 ⟨[some d], none⟩).1 = .ok (bbox us) := by
  have hI := run_inv w hw os _ (new_inv w k c vs) fun o ho => (hos o ho).1
  obtain ⟨e1, e2, e3⟩ := run_verts w hw os _ (new_inv w k c vs) hos
  refine ⟨?_, ?_, ?_⟩ <;>
  · rw [(callBbox_good w hw _ hI _).1]
    simp only [now, bind, bodyMulti_boxOf w _ e3, e1, e2]
    simp [boxOf, Obj.new, hc, hd, hne, ht, Except.map]

/-- Two planar systems related by a shift of 10 in x. -/
def shiftWorld : World Bool Nat where
  ceq a b := a == b
  geo _ := false
  transform _ _ vs := .ok (vs.map fun p => ⟨p.x + 10, p.y⟩)
  dateBox _ := none
  len _ vs := vs.length

theorem shiftWorld_lawful : Lawful shiftWorld where
  refl a := by simp [shiftWorld]
  transform a b _ s vs := rfl
  geo a b _ := rfl
  ceq a b h c := by simp only [shiftWorld, beq_iff_eq] at h; subst h; rfl

example : (run shiftWorld (Obj.new .line false [⟨0, 0⟩, ⟨2, 1⟩])
    [.bbox ⟨[], none⟩, .extent ⟨[], some (some true)⟩, .length]).2.cBbox.isSome = true := rfl
example := C47_queries shiftWorld shiftWorld_lawful .line false true [⟨0, 0⟩, ⟨2, 1⟩] [⟨10, 0⟩, ⟨12, 1⟩]
  [.bbox ⟨[], none⟩, .extent ⟨[], some (some true)⟩, .length] (by simp [Op.NotAssign]) rfl rfl rfl
  (by simp [shiftWorld]; norm_num)
example := C47_recomputed_partial shiftWorld shiftWorld_lawful .line false [⟨0, 0⟩, ⟨2, 1⟩]
  [.bbox ⟨[], none⟩, .length, .extend [⟨5, 5⟩], .length] (by simp [Op.NotAssign]) (.bbox ⟨[], none⟩) trivial

/-- C47 is false for a Multipoint: ask for the box, move a member away, ask again.  The old box is
returned, and it does not contain the member. -/
theorem C47_violated_assignment :
    ∃ (vs : List Pt) (p : Pt) (b : Box),
      (callBbox shiftWorld (run shiftWorld (Obj.new .multipoint false vs)
        [.bbox ⟨[], none⟩, .setItem 0 p]).2 ⟨[], none⟩).1 = .ok (some b) ∧
      (run shiftWorld (Obj.new .multipoint false vs) [.bbox ⟨[], none⟩, .setItem 0 p]).2.verts = [p] ∧
      ¬ b.Contains p :=
  ⟨[⟨0, 0⟩], ⟨7, 7⟩, ⟨0, 0, 0, 0⟩, by decide +kernel, by decide +kernel, by decide +kernel⟩

/-- C47: a line that has been extended cannot compute its box or length any more: `extend` leaves a
plain array where the other methods need a coordinate string. -/
theorem C47_violated_extend (w : World Crs Len) (c : Crs) (v u : Pt) (vs us : List Pt) :
    (extend (Obj.new (Len := Len) .line c (v :: vs)) (u :: us)).1 = .ok () ∧
    (extend (Obj.new (Len := Len) .line c (v :: vs)) (u :: us)).2.verts = (v :: vs) ++ (u :: us) ∧
    (callBbox w (extend (Obj.new (Len := Len) .line c (v :: vs)) (u :: us)).2 ⟨[], none⟩).1 = .error .typeError ∧
    (callLength w (extend (Obj.new (Len := Len) .line c (v :: vs)) (u :: us)).2).1 = .error .typeError := by
  refine ⟨rfl, rfl, rfl, rfl⟩

/-! ### C83 -/

theorem Cloud.sets_indexed : ∀ (h : List (Int × Pt)) (c : Cloud), (c.sets h).indexed = c.indexed
  | [], _ => rfl
  | (i, p) :: r, c => by
    rw [Cloud.sets, Cloud.sets_indexed r]
    unfold Cloud.set
    cases Py.normIndex c.verts.length i <;> rfl

/-- C83, partial (only without a spatial index).  After any history of assignments to members, a
Multipoint built with `build_index=False` selects exactly the members that are now strictly inside
the box. -/
theorem C83_plain_partial (fuel : Nat) (vs : List Pt) (h : List (Int × Pt)) (q : Box) :
    ∃ l, ((Cloud.new vs false).sets h).within fuel q = some l ∧
      ∀ i, i ∈ l ↔ ∃ p, ((Cloud.new vs false).sets h).verts[i]? = some p ∧ q.Inside p := by
  refine ⟨_, by rw [Cloud.within, Cloud.sets_indexed]; rfl, fun i => ?_⟩
  generalize ((Cloud.new vs false).sets h).verts = pts
  simp only [QT.withinBboxPlain, List.mem_filter, List.mem_range, QT.testAt]
  by_cases hi : i < pts.length
  · rw [List.getElem?_eq_getElem hi]; simp [hi, Box.Inside]
  · rw [List.getElem?_eq_none (by omega)]; simp

/-- C83, partial (only before the first assignment).  A newly built Multipoint with a spatial index
selects exactly the members strictly inside the box; enough fuel always exists. -/
theorem C83_fresh_partial (vs : List Pt) : ∃ n, ∀ fuel, n ≤ fuel → ∀ q, ∃ l,
    (Cloud.new vs true).within fuel q = some l ∧ ∀ i, i ∈ l ↔ ∃ p, vs[i]? = some p ∧ q.Inside p := by
  obtain ⟨s, n, hs⟩ := QT.C25_build_terminates 50 (by omega) vs
  refine ⟨n, fun fuel hf q => ⟨QT.withinBboxIndexed s q, ?_, fun i => ?_⟩⟩
  · simp [Cloud.within, Cloud.new, hs fuel hf]
  · obtain ⟨h1, h2⟩ := QT.C60_within_bbox_agrees 50 (by omega) fuel vs s (hs fuel hf) q
    rw [h1]; exact h2 i

/-- C83 is false with the (default) spatial index: move a member far away; a search around its old
position still returns it and a search around its new position does not. -/
theorem C83_violated_indexed (fuel : Nat) : ∃ (vs : List Pt) (p : Pt) (old new : Box),
    ((Cloud.new vs true).sets [(0, p)]).verts = [p] ∧ ¬ old.Inside p ∧ new.Inside p ∧
    ((Cloud.new vs true).sets [(0, p)]).within (fuel + 1) old = some [0] ∧
    ((Cloud.new vs true).sets [(0, p)]).within (fuel + 1) new = some [] := by
  refine ⟨[⟨0, 0⟩], ⟨7, 7⟩, ⟨-1, -1, 1, 1⟩, ⟨6, 6, 8, 8⟩, by decide +kernel, by decide +kernel, by decide +kernel, ?_, ?_⟩
  · rw [Cloud.within, Cloud.sets_indexed]
    simp only [Cloud.new, if_true]
    have : QT.build 50 (fuel + 1) [⟨0, 0⟩] = QT.build 50 1 [⟨0, 0⟩] := by
      rfl
    rw [this]; decide +kernel
  · rw [Cloud.within, Cloud.sets_indexed]
    simp only [Cloud.new, if_true]
    have : QT.build 50 (fuel + 1) [⟨0, 0⟩] = QT.build 50 1 [⟨0, 0⟩] := by
      rfl
    rw [this]; decide +kernel

example : ((Cloud.new [⟨0, 0⟩, ⟨3, 3⟩] false).sets [(-1, ⟨1 / 2, 0⟩), (9, ⟨0, 0⟩)]).within 0 ⟨-1, -1, 1, 1⟩ = some [0, 1] := by
  decide +kernel

end Karta.Cache
