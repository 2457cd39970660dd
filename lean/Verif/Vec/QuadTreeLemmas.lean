import Verif.Vec.QuadTree
import Verif.Vec.BasicLemmas
import Mathlib.Data.List.Perm.Basic
import Mathlib.Data.List.Nodup
import Mathlib.Algebra.Order.Archimedean.Basic

namespace Karta.Vec.QT

/-- All stored positions, in the order the search visits them. -/
def Tree.pts : Tree → List Pos
  | .leaf _ ps => ps
  | .node _ ch => (ch .lr).pts ++ (ch .ll).pts ++ (ch .ur).pts ++ (ch .ul).pts

/-- Tree invariant for a node responsible for the box `bb`. -/
def Inv (cap : Nat) : Tree → Box → Prop
  | .leaf b ps, bb => b = bb ∧ (∀ p ∈ ps, bb.Contains p.pt) ∧ ps.length < cap ∧
      ps.Pairwise fun p q => p.pt ≠ q.pt
  | .node b ch, bb => b = bb ∧ ∀ q, Inv cap (ch q) (quadBox bb q) ∧
      ∀ p ∈ (ch q).pts, quadrant bb p.pt = q ∧ bb.Contains p.pt

theorem mem_node {b : Box} {ch : Quad → Tree} {p : Pos} :
    p ∈ (Tree.node b ch).pts ↔ ∃ q, p ∈ (ch q).pts := by
  simp only [Tree.pts, List.mem_append]
  constructor
  · rintro (((h | h) | h) | h)
    exacts [⟨_, h⟩, ⟨_, h⟩, ⟨_, h⟩, ⟨_, h⟩]
  · rintro ⟨q, h⟩
    cases q <;> tauto

theorem Inv.contains {cap : Nat} {t : Tree} {bb : Box} (h : Inv cap t bb) :
    ∀ p ∈ t.pts, bb.Contains p.pt := by
  cases t with
  | leaf b ps => exact h.2.1
  | node b ch =>
    intro p hp
    obtain ⟨q, hq⟩ := mem_node.1 hp
    exact ((h.2 q).2 p hq).2

theorem Inv.bb_eq {cap : Nat} {t : Tree} {bb : Box} (h : Inv cap t bb) : t.bb = bb := by
  cases t with
  | leaf b ps => exact h.1
  | node b ch => exact h.1

theorem quadBox_contains {bb : Box} {p : Pt} (h : bb.Contains p) :
    (quadBox bb (quadrant bb p)).Contains p := by
  obtain ⟨h1, h2, h3, h4⟩ := h
  unfold quadrant
  by_cases hx : p.x < (mid bb).x <;> by_cases hy : p.y < (mid bb).y <;>
    simp only [hx, hy, if_true, if_false, quadBox, Box.Contains] <;>
    refine ⟨?_, ?_, ?_, ?_⟩ <;> linarith

/-- The midpoint of a child box that holds a point lies in the quadrant of that child. -/
theorem quadrant_mid {bb : Box} {p : Pt} (h : bb.Contains p) :
    quadrant bb (mid (quadBox bb (quadrant bb p))) = quadrant bb p := by
  obtain ⟨h1, h2, h3, h4⟩ := h
  by_cases hx : p.x < (mid bb).x <;> by_cases hy : p.y < (mid bb).y
  · have e : quadrant bb p = .ll := by simp [quadrant, hx, hy]
    rw [e]
    simp only [mid] at hx hy
    unfold quadrant
    rw [if_pos, if_pos] <;> simp only [quadBox, mid] <;> linarith
  · have e : quadrant bb p = .ul := by simp [quadrant, hx, hy]
    rw [e]
    simp only [mid] at hx hy
    unfold quadrant
    rw [if_pos, if_neg] <;> simp only [quadBox, mid] <;> linarith
  · have e : quadrant bb p = .lr := by simp [quadrant, hx, hy]
    rw [e]
    simp only [mid] at hx hy
    unfold quadrant
    rw [if_neg, if_pos] <;> simp only [quadBox, mid] <;> linarith
  · have e : quadrant bb p = .ur := by simp [quadrant, hx, hy]
    rw [e]
    simp only [mid] at hx hy
    unfold quadrant
    rw [if_neg, if_neg] <;> simp only [quadBox, mid] <;> linarith

theorem parts_perm (bb : Box) (ps : List Pos) :
    (ps.filter fun p => quadrant bb p.pt = .lr) ++ (ps.filter fun p => quadrant bb p.pt = .ll) ++
      (ps.filter fun p => quadrant bb p.pt = .ur) ++ (ps.filter fun p => quadrant bb p.pt = .ul)
      |>.Perm ps := by
  rw [List.perm_iff_count]
  intro a
  simp only [List.count_append]
  by_cases ha : a ∈ ps
  · have hc : ∀ q, List.count a (ps.filter fun p => decide (quadrant bb p.pt = q))
        = if quadrant bb a.pt = q then List.count a ps else 0 := by
      intro q
      split
      · rename_i h
        exact List.count_filter (by simpa using h)
      · rename_i h
        apply List.count_eq_zero_of_not_mem
        simp [h]
    simp only [hc]
    cases quadrant bb a.pt <;> simp
  · have hc : ∀ q, List.count a (ps.filter fun p => decide (quadrant bb p.pt = q)) = 0 := by
      intro q
      apply List.count_eq_zero_of_not_mem
      simp [ha]
    simp only [hc]
    rw [List.count_eq_zero_of_not_mem ha]

theorem node_pts_perm (bb : Box) (ch : Quad → Tree) (ps : List Pos)
    (h : ∀ q, (ch q).pts.Perm (ps.filter fun p => quadrant bb p.pt = q)) :
    (Tree.node bb ch).pts.Perm ps :=
  ((((h .lr).append (h .ll)).append (h .ur)).append (h .ul)).trans (parts_perm bb ps)

theorem split_spec {cap : Nat} (hcap : 1 ≤ cap) (fuel : Nat) (bb : Box) (ps : List Pos) (t : Tree)
    (h : split cap fuel bb ps = some t) (hl : ps.length = cap)
    (hc : ∀ p ∈ ps, bb.Contains p.pt) (hd : ps.Pairwise fun p q => p.pt ≠ q.pt) :
    Inv cap t bb ∧ t.pts.Perm ps ∧ ∃ ch, t = .node bb ch := by
  induction fuel generalizing bb ps t with
  | zero => simp [split] at h
  | succ fuel ih =>
    -- one child split again
    have hagain : ∀ q, cap ≤ (ps.filter fun p => quadrant bb p.pt = q).length →
        (match split cap fuel (quadBox bb q) (ps.filter fun p => quadrant bb p.pt = q) with
          | none => none
          | some s => some (Tree.node bb (setChild (setChild
              (fun q => Tree.leaf (quadBox bb q) (ps.filter fun p => quadrant bb p.pt = q))
              (quadrant bb (mid (quadBox bb q))) s) q s))) = some t →
        Inv cap t bb ∧ t.pts.Perm ps ∧ ∃ ch, t = .node bb ch := by
      intro q hq e
      have hall : ∀ p ∈ ps, quadrant bb p.pt = q := by
        have : (ps.filter fun p => quadrant bb p.pt = q).length = ps.length := by
          have := List.length_filter_le (fun p : Pos => decide (quadrant bb p.pt = q)) ps
          omega
        simpa using (List.length_filter_eq_length_iff.1 this)
      have hself : (ps.filter fun p => quadrant bb p.pt = q) = ps := by
        rw [List.filter_eq_self]; simpa using hall
      obtain ⟨p0, hp0⟩ : ∃ p, p ∈ ps := by
        cases ps with
        | nil => simp at hl; omega
        | cons p _ => exact ⟨p, by simp⟩
      have hmid : quadrant bb (mid (quadBox bb q)) = q := by
        have := quadrant_mid (hc p0 hp0)
        rwa [hall p0 hp0] at this
      rw [hself, hmid] at e
      cases hs : split cap fuel (quadBox bb q) ps with
      | none => rw [hs] at e; simp at e
      | some s =>
        rw [hs] at e
        simp only [Option.some.injEq] at e
        obtain ⟨i1, i2, _⟩ := ih (quadBox bb q) ps s hs hl
          (fun p hp => by have := quadBox_contains (hc p hp); rwa [hall p hp] at this) hd
        subst e
        have hch : ∀ q', (setChild (setChild (fun q => Tree.leaf (quadBox bb q)
            (ps.filter fun p => quadrant bb p.pt = q)) q s) q s q')
            = if q' = q then s else Tree.leaf (quadBox bb q')
              (ps.filter fun p => quadrant bb p.pt = q') := by
          intro q'
          unfold setChild
          split <;> simp_all
        have hempty : ∀ q', q' ≠ q → (ps.filter fun p => quadrant bb p.pt = q') = [] := by
          intro q' hne
          rw [List.filter_eq_nil_iff]
          intro p hp
          simp [hall p hp, Ne.symm hne]
        refine ⟨⟨rfl, fun q' => ?_⟩, ?_, ⟨_, rfl⟩⟩
        · rw [hch]
          by_cases hq' : q' = q
          · rw [if_pos hq', hq']
            refine ⟨i1, fun p hp => ?_⟩
            have := i2.mem_iff.1 hp
            exact ⟨hall p this, hc p this⟩
          · rw [if_neg hq', hempty q' hq']
            refine ⟨⟨rfl, by simp, by simp; omega, by simp⟩, by simp [Tree.pts]⟩
        · apply node_pts_perm
          intro q'
          rw [hch]
          by_cases hq' : q' = q
          · rw [if_pos hq', hq', hself]; exact i2
          · rw [if_neg hq']; exact List.Perm.refl _
    simp only [split] at h
    split at h
    · exact hagain _ (by assumption) h
    · split at h
      · exact hagain _ (by assumption) h
      · split at h
        · exact hagain _ (by assumption) h
        · split at h
          · exact hagain _ (by assumption) h
          · rename_i h1 h2 h3 h4
            simp only [Option.some.injEq] at h
            subst h
            refine ⟨⟨rfl, fun q => ⟨⟨rfl, ?_, ?_, ?_⟩, ?_⟩⟩, ?_, ⟨_, rfl⟩⟩
            · intro p hp
              obtain ⟨hp1, hp2⟩ := List.mem_filter.1 hp
              have := quadBox_contains (hc p hp1)
              rwa [of_decide_eq_true hp2] at this
            · cases q <;> omega
            · exact hd.sublist List.filter_sublist
            · intro p hp
              obtain ⟨hp1, hp2⟩ := List.mem_filter.1 hp
              exact ⟨of_decide_eq_true hp2, hc p hp1⟩
            · apply node_pts_perm
              intro q; exact List.Perm.refl _

theorem duplicate_some {p : Pos} {ps : List Pos} {i : Nat} (h : duplicate p ps = some i) :
    ∃ r ∈ ps, r.id = i ∧ r.pt = p.pt := by
  induction ps with
  | nil => simp [duplicate] at h
  | cons q qs ih =>
    simp only [duplicate] at h
    split at h
    · rename_i hxy
      refine ⟨q, by simp, by simpa using h, ?_⟩
      cases hq : q.pt; cases hp : p.pt
      simp_all
    · obtain ⟨r, hr, e⟩ := ih h
      exact ⟨r, by simp [hr], e⟩

theorem duplicate_none {p : Pos} {ps : List Pos} (h : duplicate p ps = none) :
    ∀ r ∈ ps, r.pt ≠ p.pt := by
  induction ps with
  | nil => simp
  | cons q qs ih =>
    simp only [duplicate] at h
    split at h
    · simp at h
    · rename_i hxy
      intro r hr
      rcases List.mem_cons.1 hr with rfl | hr
      · intro e; exact hxy (by rw [e]; exact ⟨rfl, rfl⟩)
      · exact ih h r hr

theorem insert_spec {cap : Nat} (hcap : 1 ≤ cap) (fuel : Nat) (t : Tree) (bb : Box) (p : Pos)
    (hi : Inv cap t bb) (hp : bb.Contains p.pt) (d : Option Nat) (t' : Tree)
    (h : insert cap fuel t p = some (d, t')) :
    (∀ i, d = some i → ∃ r ∈ t.pts, r.id = i ∧ r.pt = p.pt) ∧
    (d = none → Inv cap t' bb ∧ t'.pts.Perm (p :: t.pts) ∧ ∀ r ∈ t.pts, r.pt ≠ p.pt) := by
  induction t generalizing bb d t' with
  | leaf b ps =>
    obtain ⟨rfl, hc, hl, hd⟩ := hi
    simp only [insert] at h
    cases hdup : duplicate p ps with
    | some i =>
      rw [hdup] at h
      simp only [Option.some.injEq, Prod.mk.injEq] at h
      obtain ⟨rfl, rfl⟩ := h
      refine ⟨?_, by simp⟩
      rintro j ⟨⟩
      exact duplicate_some hdup
    | none =>
      have hne := duplicate_none hdup
      rw [hdup] at h
      simp only [] at h
      have hpw : (ps ++ [p]).Pairwise fun p q => p.pt ≠ q.pt := by
        rw [List.pairwise_append]
        refine ⟨hd, by simp, ?_⟩
        intro a ha c hc'
        rw [List.mem_singleton.1 hc']
        exact hne a ha
      have hcc : ∀ r ∈ ps ++ [p], b.Contains r.pt := by
        intro r hr
        rcases List.mem_append.1 hr with hr | hr
        · exact hc r hr
        · rw [List.mem_singleton.1 hr]; exact hp
      have hperm : (ps ++ [p]).Perm (p :: ps) := List.perm_append_singleton p ps
      by_cases hful : cap ≤ (ps ++ [p]).length
      · rw [if_pos hful] at h
        cases hs : split cap fuel b (ps ++ [p]) with
        | none => rw [hs] at h; simp at h
        | some s =>
          rw [hs] at h
          simp only [Option.some.injEq, Prod.mk.injEq] at h
          obtain ⟨rfl, rfl⟩ := h
          obtain ⟨i1, i2, _⟩ := split_spec hcap fuel b (ps ++ [p]) s hs
            (by simp at hful ⊢; omega) hcc hpw
          exact ⟨by simp, fun _ => ⟨i1, i2.trans hperm, hne⟩⟩
      · rw [if_neg hful] at h
        simp only [Option.some.injEq, Prod.mk.injEq] at h
        obtain ⟨rfl, rfl⟩ := h
        exact ⟨by simp, fun _ => ⟨⟨rfl, hcc, by omega, hpw⟩, hperm, hne⟩⟩
  | node b ch ih =>
    obtain ⟨rfl, hq⟩ := hi
    simp only [insert] at h
    cases hr : insert cap fuel (ch (quadrant b p.pt)) p with
    | none => rw [hr] at h; simp at h
    | some r =>
      obtain ⟨d', s⟩ := r
      rw [hr] at h
      simp only [Option.some.injEq, Prod.mk.injEq] at h
      obtain ⟨rfl, rfl⟩ := h
      obtain ⟨a1, a2⟩ := ih (quadrant b p.pt) (quadBox b (quadrant b p.pt))
        (hq (quadrant b p.pt)).1 (quadBox_contains hp) d' s hr
      refine ⟨?_, ?_⟩
      · intro i e
        obtain ⟨r, hr, e2⟩ := a1 i e
        exact ⟨r, mem_node.2 ⟨_, hr⟩, e2⟩
      · intro e
        obtain ⟨i1, i2, i3⟩ := a2 e
        have hslot : slot b (quadrant b p.pt) (ch (quadrant b p.pt)) s = quadrant b p.pt := by
          have hb := (hq (quadrant b p.pt)).1.bb_eq
          cases hcq : ch (quadrant b p.pt) with
          | leaf lb lps =>
            rw [hcq] at hb
            simp only [Tree.bb] at hb
            cases s with
            | leaf _ _ => rfl
            | node _ _ => simp only [slot, hb]; exact quadrant_mid hp
          | node _ _ => cases s <;> rfl
        rw [hslot]
        have hmemS : ∀ r ∈ s.pts, r = p ∨ r ∈ (ch (quadrant b p.pt)).pts := by
          intro r hr
          simpa using i2.mem_iff.1 hr
        refine ⟨⟨rfl, fun q => ?_⟩, ?_, ?_⟩
        · simp only [setChild]
          by_cases hqq : q = quadrant b p.pt
          · rw [if_pos hqq, hqq]
            refine ⟨i1, fun r hr => ?_⟩
            rcases hmemS r hr with rfl | hr
            · exact ⟨rfl, hp⟩
            · exact (hq _).2 r hr
          · rw [if_neg hqq]; exact hq q
        · rw [List.perm_iff_count] at i2 ⊢
          intro a
          have hca := i2 a
          generalize hqq : quadrant b p.pt = q0 at hca ⊢
          cases q0 <;>
            simp only [Tree.pts, setChild, List.count_append, List.count_cons, if_true,
              reduceCtorEq, if_false] at hca ⊢ <;> omega
        · intro r hr
          obtain ⟨q, hrq⟩ := mem_node.1 hr
          by_cases hqq : q = quadrant b p.pt
          · subst hqq; exact i3 r hrq
          · intro e
            have := ((hq q).2 r hrq).1
            rw [e] at this
            exact hqq this.symm

/-! ### Construction -/

/-- Ids reported for one stored position. -/
def group (d : Nat → List Nat) (p : Pos) : List Nat := d p.id ++ [p.id]

structure StateInv (cap : Nat) (bb : Box) (all : List Pt) (k : Nat) (s : State) : Prop where
  inv : Inv cap s.root bb
  perm : (s.root.pts.flatMap (group s.dups)).Perm (List.range k)
  ids : ∀ p ∈ s.root.pts, ∀ j ∈ group s.dups p, all[j]? = some p.pt
  fresh : ∀ j, k ≤ j → s.dups j = []

theorem ids_sublist (d : Nat → List Nat) (L : List Pos) :
    (L.map Pos.id).Sublist (L.flatMap (group d)) := by
  induction L with
  | nil => simp
  | cons p L ih =>
    simp only [List.map_cons, List.flatMap_cons, group, List.append_assoc, List.singleton_append]
    exact List.Sublist.trans (ih.cons_cons p.id) (List.sublist_append_right _ _)

theorem flatMap_addDup (d : Nat → List Nat) (k i : Nat) (L : List Pos)
    (hn : (L.map Pos.id).Nodup) (hi : i ∈ L.map Pos.id) :
    (L.flatMap (group (addDup d i k))).Perm (k :: L.flatMap (group d)) := by
  induction L with
  | nil => simp at hi
  | cons p L ih =>
    simp only [List.map_cons, List.nodup_cons] at hn
    simp only [List.flatMap_cons]
    by_cases hp : p.id = i
    · have htail : L.flatMap (group (addDup d i k)) = L.flatMap (group d) := by
        apply List.flatMap_congr
        intro q hq
        have : q.id ≠ i := by
          intro e; rw [← hp] at e
          exact hn.1 (List.mem_map.2 ⟨q, hq, e⟩)
        simp [group, addDup, this]
      rw [htail]
      simp only [group, addDup, hp, if_true]
      rw [List.perm_iff_count]
      intro a
      simp only [List.count_append, List.count_cons]
      simp only [List.count_nil]
      omega
    · have hi' : i ∈ L.map Pos.id := by
        rcases List.mem_cons.1 hi with h | h
        · exact absurd h.symm hp
        · exact h
      have := ih hn.2 hi'
      simp only [group, addDup, hp, if_false]
      refine (List.Perm.append_left _ this).trans ?_
      rw [List.perm_iff_count]
      intro a
      simp only [List.count_append, List.count_cons]
      simp only [List.count_nil]
      omega

theorem step_inv {cap : Nat} (hcap : 1 ≤ cap) {fuel : Nat} {bb : Box} {all : List Pt} {k : Nat}
    {s : State} (h : StateInv cap bb all k s) {p : Pt} (hk : all[k]? = some p)
    (hp : bb.Contains p) {d : Option Nat} {t : Tree}
    (e : insert cap fuel s.root ⟨k, p⟩ = some (d, t)) :
    StateInv cap bb all (k + 1) (match d with
      | some i => ⟨s.root, addDup s.dups i k⟩
      | none => ⟨t, s.dups⟩) := by
  obtain ⟨h1, h2⟩ := insert_spec hcap fuel s.root bb ⟨k, p⟩ h.inv hp d t e
  have hnod : (s.root.pts.flatMap (group s.dups)).Nodup :=
    h.perm.symm.nodup List.nodup_range
  have hidn : (s.root.pts.map Pos.id).Nodup := hnod.sublist (ids_sublist _ _)
  have hrange : (List.range (k + 1)).Perm (k :: List.range k) := by
    rw [List.range_succ]; exact List.perm_append_singleton _ _
  have hlt : ∀ r ∈ s.root.pts, r.id < k := by
    intro r hr
    have : r.id ∈ s.root.pts.flatMap (group s.dups) :=
      List.mem_flatMap.2 ⟨r, hr, by simp [group]⟩
    simpa using h.perm.mem_iff.1 this
  cases d with
  | some i =>
    obtain ⟨r, hr, hri, hrp⟩ := h1 i rfl
    refine ⟨h.inv, ?_, ?_, ?_⟩
    · exact (flatMap_addDup s.dups k i _ hidn (List.mem_map.2 ⟨r, hr, hri⟩)).trans
        ((List.Perm.cons k h.perm).trans hrange.symm)
    · intro q hq j hj
      simp only [group, addDup] at hj
      by_cases hqi : q.id = i
      · have hqr : q = r := by
          have := List.inj_on_of_nodup_map hidn hq hr (by rw [hqi, hri])
          exact this
        rw [if_pos hqi] at hj
        simp only [List.mem_append, List.mem_singleton] at hj
        rcases hj with (hj | hj) | hj
        · exact h.ids q hq j (by simp [group, hj])
        · rw [hj, hk, hqr, hrp]
        · exact h.ids q hq j (by simp [group, hj])
      · rw [if_neg hqi] at hj
        exact h.ids q hq j hj
    · intro j hj
      have : j ≠ i := by
        have := hlt r hr
        rw [hri] at this; omega
      simp only [addDup, this, if_false]
      exact h.fresh j (by omega)
  | none =>
    obtain ⟨i1, i2, _⟩ := h2 rfl
    refine ⟨i1, ?_, ?_, ?_⟩
    · refine (i2.flatMap_right _).trans ?_
      have : group s.dups ⟨k, p⟩ = [k] := by simp [group, h.fresh k (le_refl _)]
      simp only [List.flatMap_cons, this, List.singleton_append]
      exact (List.Perm.cons k h.perm).trans hrange.symm
    · intro q hq j hj
      rcases List.mem_cons.1 (i2.mem_iff.1 hq) with rfl | hq
      · have : group s.dups ⟨k, p⟩ = [k] := by simp [group, h.fresh k (le_refl _)]
        rw [this] at hj
        rw [List.mem_singleton.1 hj, hk]
      · exact h.ids q hq j hj
    · intro j hj; exact h.fresh j (by omega)

theorem buildLoop_inv {cap : Nat} (hcap : 1 ≤ cap) {fuel : Nat} {bb : Box} (all : List Pt)
    (hbb : ∀ p ∈ all, bb.Contains p) (rest : List Pt) (k : Nat) (hk : all.drop k = rest)
    (s : State) (h : StateInv cap bb all k s) (s' : State)
    (e : buildLoop cap fuel rest k s = some s') : StateInv cap bb all all.length s' := by
  induction rest generalizing k s with
  | nil =>
    simp only [buildLoop, Option.some.injEq] at e
    subst e
    have hkl : all.length ≤ k := by simpa using hk
    -- k cannot exceed the length: ids below k are positions of `all`
    have : k ≤ all.length := by
      by_contra hcon
      have hmem : all.length ∈ s.root.pts.flatMap (group s.dups) :=
        h.perm.mem_iff.2 (by simp; omega)
      obtain ⟨p, hp, hj⟩ := List.mem_flatMap.1 hmem
      have := h.ids p hp _ hj
      simp at this
    have : k = all.length := by omega
    subst this; exact h
  | cons p rest ih =>
    have hkp : all[k]? = some p := by
      have : (all.drop k)[0]? = some p := by rw [hk]; rfl
      simpa using this
    have hdrop : all.drop (k + 1) = rest := by
      have : (all.drop k).tail = rest := by rw [hk]; rfl
      simpa using this
    have hc : bb.Contains p := hbb p (List.mem_of_getElem? hkp)
    simp only [buildLoop] at e
    cases hi : insert cap fuel s.root ⟨k, p⟩ with
    | none => rw [hi] at e; simp at e
    | some r =>
      obtain ⟨d, t⟩ := r
      have hstep := step_inv hcap h hkp hc hi
      rw [hi] at e
      cases d with
      | some i => exact ih (k + 1) hdrop _ hstep e
      | none => exact ih (k + 1) hdrop _ hstep e

theorem init_inv {cap : Nat} (hcap : 1 ≤ cap) (bb : Box) (all : List Pt) :
    StateInv cap bb all 0 ⟨.leaf bb [], fun _ => []⟩ :=
  ⟨⟨rfl, by simp, by simp; omega, by simp⟩, by simp [Tree.pts], by simp [Tree.pts],
    by simp⟩

theorem root_contains (pts : List Pt) :
    ∀ p ∈ pts, ((bbox pts).getD ⟨0, 0, 0, 0⟩).Contains p := by
  intro p hp
  cases hb : bbox pts with
  | none => cases pts with
    | nil => simp at hp
    | cons a as => simp [bbox] at hb
  | some b => exact bbox_contains hb p hp

/-! ### Search -/

theorem overlaps_of_inside {q bb : Box} {p : Pt} (h1 : iswithin q p = true)
    (h2 : bb.Contains p) : overlaps q bb = true := by
  simp only [iswithin, decide_eq_true_eq] at h1
  obtain ⟨a1, a2, a3, a4⟩ := h1
  obtain ⟨b1, b2, b3, b4⟩ := h2
  simp only [overlaps, decide_eq_true_eq, ge_iff_le, max_le_iff, le_min_iff]
  refine ⟨⟨⟨?_, ?_⟩, ⟨?_, ?_⟩⟩, ⟨⟨?_, ?_⟩, ⟨?_, ?_⟩⟩⟩ <;> linarith

theorem filter_child {cap : Nat} {q cb : Box} {t : Tree} (hi : Inv cap t cb)
    (ho : overlaps q t.bb = false) : (t.pts.filter fun p => iswithin q p.pt) = [] := by
  rw [List.filter_eq_nil_iff]
  intro p hp hw
  have := overlaps_of_inside hw (hi.contains p hp)
  rw [hi.bb_eq] at ho
  rw [ho] at this; cases this

theorem searchLoop_eq {cap : Nat} (q : Box) (st : List Tree)
    (h : ∀ t ∈ st, ∃ bb, Inv cap t bb) :
    searchLoop q st = (st.flatMap fun t => t.pts.filter fun p => iswithin q p.pt).map Pos.id := by
  fun_induction searchLoop q st with
  | case1 => rfl
  | case2 b ps rest ih =>
    rw [ih (fun t ht => h t (by simp [ht]))]
    simp [Tree.pts]
  | case3 b ch rest ih =>
    obtain ⟨bb, hb, hch⟩ := h (.node b ch) (by simp)
    rw [ih]
    · congr 1
      simp only [List.flatMap_append, List.flatMap_cons]
      congr 1
      have hk : ∀ k, (if overlaps q (ch k).bb = true
          then ((ch k).pts.filter fun p => iswithin q p.pt) else [])
          = (ch k).pts.filter fun p => iswithin q p.pt := by
        intro k
        split
        · rfl
        · rename_i ho
          exact (filter_child (hch k).1 (by simpa using ho)).symm
      simp only [Tree.pts, List.filter_append]
      rw [← hk .lr, ← hk .ll, ← hk .ur, ← hk .ul]
      simp only [pushed, List.filter_cons, List.filter_nil]
      cases overlaps q (ch .lr).bb <;> cases overlaps q (ch .ll).bb <;>
        cases overlaps q (ch .ur).bb <;> cases overlaps q (ch .ul).bb <;> simp
    · intro t ht
      rcases List.mem_append.1 ht with ht | ht
      · simp only [pushed, List.mem_map] at ht
        obtain ⟨k, _, rfl⟩ := ht
        exact ⟨_, (hch k).1⟩
      · exact h t (by simp [ht])

/-! ### Termination -/

theorem split_mono (cap : Nat) (fuel : Nat) (bb : Box) (ps : List Pos) (t : Tree)
    (h : split cap fuel bb ps = some t) : split cap (fuel + 1) bb ps = some t := by
  induction fuel generalizing bb ps t with
  | zero => simp [split] at h
  | succ fuel ih =>
    have key : ∀ q, ∀ r, (match split cap fuel (quadBox bb q)
          (ps.filter fun p => quadrant bb p.pt = q) with
          | none => none
          | some s => some (Tree.node bb (setChild (setChild
              (fun q => Tree.leaf (quadBox bb q) (ps.filter fun p => quadrant bb p.pt = q))
              (quadrant bb (mid (quadBox bb q))) s) q s))) = some r →
        (match split cap (fuel + 1) (quadBox bb q)
          (ps.filter fun p => quadrant bb p.pt = q) with
          | none => none
          | some s => some (Tree.node bb (setChild (setChild
              (fun q => Tree.leaf (quadBox bb q) (ps.filter fun p => quadrant bb p.pt = q))
              (quadrant bb (mid (quadBox bb q))) s) q s))) = some r := by
      intro q r hr
      cases hs : split cap fuel (quadBox bb q) (ps.filter fun p => quadrant bb p.pt = q) with
      | none => rw [hs] at hr; simp at hr
      | some s => rw [ih _ _ _ hs]; rw [hs] at hr; exact hr
    rw [split] at h ⊢
    simp only [] at h ⊢
    split at h
    · rename_i hc; rw [if_pos hc]; exact key _ _ h
    · rename_i hc1
      rw [if_neg hc1]
      split at h
      · rename_i hc; rw [if_pos hc]; exact key _ _ h
      · rename_i hc2
        rw [if_neg hc2]
        split at h
        · rename_i hc; rw [if_pos hc]; exact key _ _ h
        · rename_i hc3
          rw [if_neg hc3]
          split at h
          · rename_i hc; rw [if_pos hc]; exact key _ _ h
          · rename_i hc4
            rw [if_neg hc4]; exact h

theorem insert_mono (cap fuel : Nat) (t : Tree) (p : Pos) (r : Option Nat × Tree)
    (h : insert cap fuel t p = some r) : insert cap (fuel + 1) t p = some r := by
  induction t generalizing r with
  | leaf b ps =>
    simp only [insert] at h ⊢
    cases hd : duplicate p ps with
    | some i => rw [hd] at h; exact h
    | none =>
      rw [hd] at h
      simp only [] at h ⊢
      by_cases hc : cap ≤ (ps ++ [p]).length
      · rw [if_pos hc] at h ⊢
        cases hs : split cap fuel b (ps ++ [p]) with
        | none => rw [hs] at h; simp at h
        | some s => rw [split_mono _ _ _ _ _ hs]; rw [hs] at h; exact h
      · rw [if_neg hc] at h ⊢; exact h
  | node b ch ih =>
    simp only [insert] at h ⊢
    cases hs : insert cap fuel (ch (quadrant b p.pt)) p with
    | none => rw [hs] at h; simp at h
    | some s => rw [ih _ _ hs]; rw [hs] at h; exact h

theorem buildLoop_mono (cap fuel : Nat) (ps : List Pt) (k : Nat) (s r : State)
    (h : buildLoop cap fuel ps k s = some r) : buildLoop cap (fuel + 1) ps k s = some r := by
  induction ps generalizing k s with
  | nil => exact h
  | cons p ps ih =>
    simp only [buildLoop] at h ⊢
    cases hi : insert cap fuel s.root ⟨k, p⟩ with
    | none => rw [hi] at h; simp at h
    | some v =>
      obtain ⟨d, t⟩ := v
      rw [insert_mono _ _ _ _ _ hi]
      rw [hi] at h
      cases d with
      | some i => exact ih _ _ h
      | none => exact ih _ _ h

theorem buildLoop_mono_le (cap : Nat) {f f' : Nat} (hf : f ≤ f') (ps : List Pt) (k : Nat)
    (s r : State) (h : buildLoop cap f ps k s = some r) : buildLoop cap f' ps k s = some r := by
  induction hf with
  | refl => exact h
  | step _ ih => exact buildLoop_mono _ _ _ _ _ _ ih

/-- Splitting succeeds as soon as two of the points are further apart than the box halved
`n` times. -/
theorem split_terminates {cap : Nat} (n : Nat) (bb : Box) (ps : List Pos)
    (hl : ps.length = cap) (hc : ∀ p ∈ ps, bb.Contains p.pt) (a b : Pos) (ha : a ∈ ps) (hb : b ∈ ps)
    (δ : ℚ) (hδ : δ ≤ |a.pt.x - b.pt.x| ∨ δ ≤ |a.pt.y - b.pt.y|)
    (hx : bb.xmax - bb.xmin < δ * 2 ^ n) (hy : bb.ymax - bb.ymin < δ * 2 ^ n) :
    ∃ t, split cap (n + 1) bb ps = some t := by
  induction n generalizing bb with
  | zero =>
    exfalso
    obtain ⟨a1, a2, a3, a4⟩ := hc a ha
    obtain ⟨b1, b2, b3, b4⟩ := hc b hb
    have h1 : |a.pt.x - b.pt.x| ≤ bb.xmax - bb.xmin := by rw [abs_le]; constructor <;> linarith
    have h2 : |a.pt.y - b.pt.y| ≤ bb.ymax - bb.ymin := by rw [abs_le]; constructor <;> linarith
    simp only [pow_zero, mul_one] at hx hy
    rcases hδ with h | h <;> linarith
  | succ n ih =>
    have key : ∀ q, cap ≤ (ps.filter fun p => quadrant bb p.pt = q).length →
        ∃ s, split cap (n + 1) (quadBox bb q) (ps.filter fun p => quadrant bb p.pt = q)
          = some s := by
      intro q hq
      have hlen : (ps.filter fun p => quadrant bb p.pt = q).length = ps.length := by
        have := List.length_filter_le (fun p : Pos => decide (quadrant bb p.pt = q)) ps
        omega
      have hall : ∀ p ∈ ps, quadrant bb p.pt = q := by
        simpa using (List.length_filter_eq_length_iff.1 hlen)
      have hself : (ps.filter fun p => quadrant bb p.pt = q) = ps := by
        rw [List.filter_eq_self]; simpa using hall
      rw [hself]
      rw [pow_succ] at hx hy
      apply ih
      · intro p hp
        have := quadBox_contains (hc p hp)
        rwa [hall p hp] at this
      · cases q <;> simp only [quadBox, mid] <;> linarith
      · cases q <;> simp only [quadBox, mid] <;> linarith
    rw [split]
    simp only []
    split
    · rename_i h; obtain ⟨s, e⟩ := key _ h; rw [e]; exact ⟨_, rfl⟩
    · split
      · rename_i h; obtain ⟨s, e⟩ := key _ h; rw [e]; exact ⟨_, rfl⟩
      · split
        · rename_i h; obtain ⟨s, e⟩ := key _ h; rw [e]; exact ⟨_, rfl⟩
        · split
          · rename_i h; obtain ⟨s, e⟩ := key _ h; rw [e]; exact ⟨_, rfl⟩
          · exact ⟨_, rfl⟩

theorem exists_split {cap : Nat} (hcap : 2 ≤ cap) (bb : Box) (ps : List Pos)
    (hl : ps.length = cap) (hc : ∀ p ∈ ps, bb.Contains p.pt)
    (hd : ps.Pairwise fun p q => p.pt ≠ q.pt) : ∃ fuel t, split cap fuel bb ps = some t := by
  match ps, hl with
  | [], hl => simp at hl; omega
  | [_], hl => simp at hl; omega
  | a :: b :: rest, hl =>
    have hne : a.pt ≠ b.pt := (List.pairwise_cons.1 hd).1 b (by simp)
    obtain ⟨δ, hpos, hδ⟩ : ∃ δ : ℚ, 0 < δ ∧ (δ ≤ |a.pt.x - b.pt.x| ∨ δ ≤ |a.pt.y - b.pt.y|) := by
      by_cases hx : a.pt.x = b.pt.x
      · have hy : a.pt.y ≠ b.pt.y := by
          intro hy; apply hne
          cases h1 : a.pt; cases h2 : b.pt; simp_all
        exact ⟨_, abs_pos.2 (sub_ne_zero.2 hy), Or.inr le_rfl⟩
      · exact ⟨_, abs_pos.2 (sub_ne_zero.2 hx), Or.inl le_rfl⟩
    obtain ⟨n, hn⟩ := pow_unbounded_of_one_lt
      ((max (bb.xmax - bb.xmin) (bb.ymax - bb.ymin)) / δ) (one_lt_two (α := ℚ))
    rw [div_lt_iff₀ hpos] at hn
    have hx : bb.xmax - bb.xmin < δ * 2 ^ n := by
      rw [mul_comm]; exact lt_of_le_of_lt (le_max_left _ _) hn
    have hy : bb.ymax - bb.ymin < δ * 2 ^ n := by
      rw [mul_comm]; exact lt_of_le_of_lt (le_max_right _ _) hn
    obtain ⟨t, ht⟩ := split_terminates n bb _ hl hc a b (by simp) (by simp) δ hδ hx hy
    exact ⟨_, t, ht⟩

theorem exists_insert {cap : Nat} (hcap : 2 ≤ cap) (t : Tree) (bb : Box) (p : Pos)
    (hi : Inv cap t bb) (hp : bb.Contains p.pt) : ∃ fuel r, insert cap fuel t p = some r := by
  induction t generalizing bb with
  | leaf b ps =>
    obtain ⟨rfl, hc, hl, hd⟩ := hi
    simp only [insert]
    cases hdup : duplicate p ps with
    | some i => exact ⟨0, _, rfl⟩
    | none =>
      simp only []
      by_cases hful : cap ≤ (ps ++ [p]).length
      · simp only [if_pos hful]
        obtain ⟨fuel, t, e⟩ := exists_split hcap b (ps ++ [p]) (by simp at hful ⊢; omega)
          (by
            intro r hr
            rcases List.mem_append.1 hr with hr | hr
            · exact hc r hr
            · rw [List.mem_singleton.1 hr]; exact hp)
          (by
            rw [List.pairwise_append]
            refine ⟨hd, by simp, ?_⟩
            intro a ha c hc'
            rw [List.mem_singleton.1 hc']
            exact duplicate_none hdup a ha)
        exact ⟨fuel, _, by rw [e]⟩
      · simp only [if_neg hful]; exact ⟨0, _, rfl⟩
  | node b ch ih =>
    obtain ⟨rfl, hq⟩ := hi
    obtain ⟨fuel, r, e⟩ := ih (quadrant b p.pt) _ (hq _).1 (quadBox_contains hp)
    exact ⟨fuel, _, by simp only [insert, e]; rfl⟩

theorem exists_buildLoop {cap : Nat} (hcap : 2 ≤ cap) {bb : Box} (all : List Pt)
    (hbb : ∀ p ∈ all, bb.Contains p) (rest : List Pt) (k : Nat) (hk : all.drop k = rest)
    (s : State) (h : StateInv cap bb all k s) :
    ∃ fuel s', buildLoop cap fuel rest k s = some s' := by
  induction rest generalizing k s with
  | nil => exact ⟨0, s, rfl⟩
  | cons p rest ih =>
    have hkp : all[k]? = some p := by
      have : (all.drop k)[0]? = some p := by rw [hk]; rfl
      simpa using this
    have hdrop : all.drop (k + 1) = rest := by
      have : (all.drop k).tail = rest := by rw [hk]; rfl
      simpa using this
    have hc : bb.Contains p := hbb p (List.mem_of_getElem? hkp)
    obtain ⟨f1, ⟨d, t⟩, e1⟩ := exists_insert hcap s.root bb ⟨k, p⟩ h.inv hc
    have hstep := step_inv (by omega) h hkp hc e1
    have hmono : ∀ f, f1 ≤ f → insert cap f s.root ⟨k, p⟩ = some (d, t) := by
      intro f hf
      induction hf with
      | refl => exact e1
      | step _ ih => exact insert_mono _ _ _ _ _ ih
    cases d with
    | some i =>
      obtain ⟨f2, s', e2⟩ := ih (k + 1) hdrop _ hstep
      refine ⟨max f1 f2, s', ?_⟩
      simp only [buildLoop, hmono _ (le_max_left f1 f2)]
      exact buildLoop_mono_le cap (le_max_right f1 f2) _ _ _ _ e2
    | none =>
      obtain ⟨f2, s', e2⟩ := ih (k + 1) hdrop _ hstep
      refine ⟨max f1 f2, s', ?_⟩
      simp only [buildLoop, hmono _ (le_max_left f1 f2)]
      exact buildLoop_mono_le cap (le_max_right f1 f2) _ _ _ _ e2

end Karta.Vec.QT
