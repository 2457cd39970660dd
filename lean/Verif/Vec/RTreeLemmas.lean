import Verif.Vec.RTree
import Mathlib.Data.List.Basic
import Mathlib.Tactic.Linarith
import Mathlib.Algebra.Order.Ring.Rat
import Mathlib.Algebra.Order.Field.Basic

/-!
Lemmas about the R-tree model: memory, division of nodes, provenance of entries, shape of the tree.
-/

namespace Karta.RTree
open Karta

/-! ### Memory -/

theorem node_put (h : Heap) (a b : Nat) (f : RNode → RNode) :
    (h.put a f).node b = if a = b ∧ b < h.length then f (h.node b) else h.node b := by
  unfold Heap.node Heap.put
  rw [List.getElem?_modify]
  by_cases hb : b < h.length
  · by_cases hab : a = b
    · simp [hab, hb]
    · simp [hab]
  · have : h[b]? = none := List.getElem?_eq_none (by omega)
    simp [this, hb]

theorem node_append (h : Heap) (n : RNode) (b : Nat) :
    Heap.node (h ++ [n]) b = if b = h.length then n else h.node b := by
  unfold Heap.node
  by_cases hb : b < h.length
  · rw [List.getElem?_append_left hb, if_neg (by omega)]
  · by_cases hb' : b = h.length
    · subst hb'; simp
    · rw [if_neg hb', List.getElem?_eq_none (by simp; omega), List.getElem?_eq_none (by omega)]

@[simp] theorem length_put (h : Heap) (a : Nat) (f : RNode → RNode) : (h.put a f).length = h.length := by
  simp [Heap.put]

@[simp] theorem length_addKid (h : Heap) (p c : Nat) : (addKid h p c).length = h.length := by simp [addKid]

@[simp] theorem length_addEntry (h : Heap) (a : Nat) (e : RBox × Nat) : (addEntry h a e).length = h.length := by
  simp [addEntry]

/-! ### Division of the items of a node -/

section split
variable {β : Type _} (box : β → RBox)

theorem distribute_perm (l : List β) (A B : Side β) :
    ((distribute box l A B).1.1 ++ (distribute box l A B).2.1).Perm (A.1 ++ B.1 ++ l) := by
  induction l generalizing A B with
  | nil => simp [distribute]
  | cons x l ih =>
    have key : ∀ A' B' : Side β, (A'.1 ++ B'.1).Perm (A.1 ++ B.1 ++ [x]) →
        (((if l.length + A'.1.length = 2 then ((A'.1 ++ l, A'.2), B')
          else if l.length + B'.1.length = 2 then (A', (B'.1 ++ l, B'.2))
          else distribute box l A' B') : Side β × Side β).1.1 ++
          ((if l.length + A'.1.length = 2 then ((A'.1 ++ l, A'.2), B')
          else if l.length + B'.1.length = 2 then (A', (B'.1 ++ l, B'.2))
          else distribute box l A' B') : Side β × Side β).2.1).Perm (A.1 ++ B.1 ++ x :: l) := by
      intro A' B' h
      have h' : (A'.1 ++ B'.1 ++ l).Perm (A.1 ++ B.1 ++ x :: l) := by
        have := h.append_right l
        simpa using this
      by_cases h1 : l.length + A'.1.length = 2
      · simp only [if_pos h1]
        refine List.Perm.trans ?_ h'
        rw [List.append_assoc, List.append_assoc]
        exact List.Perm.append_left _ List.perm_append_comm
      · by_cases h2 : l.length + B'.1.length = 2
        · simp only [if_neg h1, if_pos h2]
          rw [← List.append_assoc]
          exact h'
        · simp only [if_neg h1, if_neg h2]
          exact (ih A' B').trans h'
    rw [distribute]
    by_cases hv : volumeExpanded A.2 (box x) < volumeExpanded B.2 (box x)
    · simp only [if_pos hv]
      refine key (A.1 ++ [x], A.2.grow (box x)) B ?_
      simp only [List.append_assoc]
      exact List.Perm.append_left _ List.perm_append_comm
    · simp only [if_neg hv]
      refine key A (B.1 ++ [x], B.2.grow (box x)) ?_
      simp

theorem distribute_head (l : List β) (A B : Side β) :
    (∃ t, (distribute box l A B).1.1 = A.1 ++ t) ∧ (∃ t, (distribute box l A B).2.1 = B.1 ++ t) := by
  induction l generalizing A B with
  | nil => exact ⟨⟨[], by simp [distribute]⟩, ⟨[], by simp [distribute]⟩⟩
  | cons x l ih =>
    rw [distribute]
    by_cases hv : volumeExpanded A.2 (box x) < volumeExpanded B.2 (box x)
    · simp only [if_pos hv]
      split_ifs
      · exact ⟨⟨[x] ++ l, by simp⟩, ⟨[], by simp⟩⟩
      · exact ⟨⟨[x], by simp⟩, ⟨l, by simp⟩⟩
      · obtain ⟨⟨t, h1⟩, ⟨t', h2⟩⟩ := ih (A.1 ++ [x], A.2.grow (box x)) B
        exact ⟨⟨[x] ++ t, by rw [h1]; simp⟩, ⟨t', h2⟩⟩
    · simp only [if_neg hv]
      split_ifs
      · exact ⟨⟨l, by simp⟩, ⟨[x], by simp⟩⟩
      · exact ⟨⟨[], by simp⟩, ⟨[x] ++ l, by simp⟩⟩
      · obtain ⟨⟨t, h1⟩, ⟨t', h2⟩⟩ := ih A (B.1 ++ [x], B.2.grow (box x))
        exact ⟨⟨t, h1⟩, ⟨[x] ++ t', by rw [h2]; simp⟩⟩

theorem poolPop_ok {l : List β} {i : Nat} (hi : i < l.length) :
    ∃ x r, l[i]? = some x ∧ poolPop l i = .ok r ∧ r.length + 1 = l.length ∧ (x :: r).Perm l := by
  have hne : l ≠ [] := by intro h; rw [h] at hi; simp at hi
  obtain ⟨l', z, rfl⟩ : ∃ l' z, l = l' ++ [z] := ⟨l.dropLast, l.getLast hne, (List.dropLast_append_getLast hne).symm⟩
  unfold poolPop
  rw [if_neg (by omega)]
  simp only [List.getLast?_append, List.getLast?_singleton, Option.some_or]
  by_cases h : i < l'.length
  · refine ⟨l'[i], l'.set i z, by rw [List.getElem?_append_left h]; simp [h], ?_, by simp, ?_⟩
    · rw [List.set_append_left _ _ h]; simp
    · have e : l' = l'.take i ++ l'[i] :: l'.drop (i + 1) := by simp
      have e2 : l'.set i z = l'.take i ++ z :: l'.drop (i + 1) := by
        rw [List.set_eq_take_append_cons_drop, if_pos h]
      rw [e2]
      conv_rhs => rw [e]
      have p1 : (l'[i] :: (l'.take i ++ z :: l'.drop (i + 1))).Perm
          (l'[i] :: z :: (l'.take i ++ l'.drop (i + 1))) :=
        List.Perm.cons _ List.perm_middle
      have p2 : (l'.take i ++ l'[i] :: l'.drop (i + 1) ++ [z]).Perm
          (z :: l'[i] :: (l'.take i ++ l'.drop (i + 1))) := by
        refine (List.perm_append_comm).trans ?_
        exact List.Perm.cons _ List.perm_middle
      exact p1.trans ((List.Perm.swap _ _ _).trans p2.symm)
  · have hi' : i = l'.length := by simp at hi; omega
    subst hi'
    refine ⟨z, l', by simp, ?_, by simp, ?_⟩
    · rw [List.set_append_right _ _ (le_refl _)]; simp
    · exact List.perm_append_comm (l₁ := [z]) (l₂ := l')

theorem poolPop_mem {l r : List β} {i : Nat} (h : poolPop l i = .ok r) : ∀ x ∈ r, x ∈ l := by
  by_cases hi : i < l.length
  · obtain ⟨x, r', -, e, -, hp⟩ := poolPop_ok hi
    rw [e] at h; cases h
    intro y hy
    exact hp.subset (List.mem_cons_of_mem _ hy)
  · unfold poolPop at h
    rw [if_pos (by omega)] at h
    cases h

theorem pickAxis_lt (lo hi : RBox → ℚ) (l : List RBox) (k : Nat) (a b : Nat × RBox) (ha : a.1 < k) (hb : b.1 < k) :
    (pickAxis lo hi l k a b).1 < k + l.length ∧ (pickAxis lo hi l k a b).2 < k + l.length := by
  induction l generalizing k a b with
  | nil => simpa [pickAxis] using ⟨ha, hb⟩
  | cons x l ih =>
    rw [pickAxis]
    simp only [List.length_cons]
    split_ifs
    · have := ih (k + 1) (k, x) b (by simp) (by omega); omega
    · have := ih (k + 1) a (k, x) (by omega) (by simp); omega
    · have := ih (k + 1) a b (by omega) (by omega); omega

/-- The two positions found along one axis coincide only if both are the first box. -/
theorem pickAxis_eq (lo hi : RBox → ℚ) (l : List RBox) (k : Nat) (a b : Nat × RBox) (ha : a.1 < k) (hb : b.1 < k)
    (h : a.1 = b.1 → a.1 = 0) (he : (pickAxis lo hi l k a b).1 = (pickAxis lo hi l k a b).2) :
    (pickAxis lo hi l k a b).1 = 0 := by
  induction l generalizing k a b with
  | nil => exact h he
  | cons x l ih =>
    rw [pickAxis] at he ⊢
    split_ifs at he ⊢
    · exact ih (k + 1) (k, x) b (by simp) (by omega) (by simp only; omega) he
    · exact ih (k + 1) a (k, x) (by omega) (by simp) (by simp only; omega) he
    · exact ih (k + 1) a b (by omega) (by omega) h he

theorem seeds_lt {pool : List β} (h : 2 ≤ pool.length) :
    (seeds box pool).1 < pool.length ∧ (seeds box pool).2 < pool.length ∧
      ((seeds box pool).1 = (seeds box pool).2 → (seeds box pool).1 = 0) := by
  obtain ⟨b, rest, rfl⟩ : ∃ b rest, pool = b :: rest := by
    cases pool with
    | nil => simp at h
    | cons b rest => exact ⟨b, rest, rfl⟩
  have hx := pickAxis_lt RBox.xmin RBox.xmax (rest.map box) 1 (0, box b) (0, box b) (by simp) (by simp)
  have hy := pickAxis_lt RBox.ymin RBox.ymax (rest.map box) 1 (0, box b) (0, box b) (by simp) (by simp)
  have ex := pickAxis_eq RBox.xmin RBox.xmax (rest.map box) 1 (0, box b) (0, box b) (by simp) (by simp) (by simp)
  have ey := pickAxis_eq RBox.ymin RBox.ymax (rest.map box) 1 (0, box b) (0, box b) (by simp) (by simp) (by simp)
  simp only [List.length_map] at hx hy
  unfold seeds pickSeeds
  simp only [List.map_cons, List.length_cons] at h ⊢
  split_ifs
  · simp only [Option.getD_none]; refine ⟨by omega, by omega, by omega⟩
  · simp only [Option.getD_some]; exact ⟨by omega, by omega, ex⟩
  · simp only [Option.getD_some]; exact ⟨by omega, by omega, ey⟩

/-- Removing two positions that coincide at most in 0. -/
theorem removeSeeds_ok {pool : List β} {s0 s1 : Nat} (h : 2 ≤ pool.length) (l0 : s0 < pool.length) (l1 : s1 < pool.length)
    (heq : s0 = s1 → s0 = 0) :
    ∃ rest, removeSeeds pool s0 s1 = .ok rest ∧ (s0 ≠ s1 → (pool[s0] :: pool[s1] :: rest).Perm pool) := by
  unfold removeSeeds
  -- a position before the one removed keeps its item
  have keep : ∀ {i j : Nat} {r : List β}, j < i → i < pool.length → poolPop pool i = .ok r → r[j]? = pool[j]? := by
    intro i j r hji hi hr
    unfold poolPop at hr
    rw [if_neg (by omega)] at hr
    cases hz : pool.getLast? with
    | none => rw [hz] at hr; cases hr
    | some z =>
      rw [hz] at hr
      cases hr
      rw [List.dropLast_eq_take, List.getElem?_take_of_lt (by simp; omega), List.getElem?_set_ne (by omega)]
  by_cases hs : s1 > s0
  · rw [if_pos hs]
    obtain ⟨x, r, hx, e, hl, hp⟩ := poolPop_ok l1
    obtain ⟨y, r', hy, e', hl', hp'⟩ := poolPop_ok (l := r) (i := s0) (by omega)
    rw [e]
    refine ⟨r', e', fun _ => ?_⟩
    rw [keep hs l1 e] at hy
    rw [List.getElem?_eq_getElem l0, Option.some.injEq] at hy
    rw [List.getElem?_eq_getElem l1, Option.some.injEq] at hx
    rw [hy, hx]
    exact (List.Perm.swap _ _ _).trans ((hp'.cons x).trans hp)
  · rw [if_neg hs]
    obtain ⟨x, r, hx, e, hl, hp⟩ := poolPop_ok l0
    obtain ⟨y, r', hy, e', hl', hp'⟩ := poolPop_ok (l := r) (i := s1) (by
      by_cases h' : s0 = s1
      · have := heq h'; omega
      · omega)
    rw [e]
    refine ⟨r', e', fun hne => ?_⟩
    rw [keep (by omega) l0 e] at hy
    rw [List.getElem?_eq_getElem l1, Option.some.injEq] at hy
    rw [List.getElem?_eq_getElem l0, Option.some.injEq] at hx
    rw [hy, hx]
    exact (hp'.cons x).trans hp

/-- A node with at least two items can be divided, and both halves are non-empty.  If the two seeds are
different, no item is lost or duplicated. -/
theorem splitItems_ok {pool : List β} (h : 2 ≤ pool.length) :
    ∃ A B, splitItems box pool = .ok (A, B) ∧ A.1 ≠ [] ∧ B.1 ≠ [] ∧
      ((seeds box pool).1 ≠ (seeds box pool).2 → (A.1 ++ B.1).Perm pool) := by
  obtain ⟨l0, l1, heq⟩ := seeds_lt box h
  obtain ⟨rest, hr, hperm⟩ := removeSeeds_ok h l0 l1 heq
  refine ⟨(distribute box rest.reverse ([pool[(seeds box pool).1]], box pool[(seeds box pool).1])
      ([pool[(seeds box pool).2]], box pool[(seeds box pool).2])).1,
    (distribute box rest.reverse ([pool[(seeds box pool).1]], box pool[(seeds box pool).1])
      ([pool[(seeds box pool).2]], box pool[(seeds box pool).2])).2, ?_, ?_, ?_, ?_⟩
  · unfold splitItems
    simp only [List.getElem?_eq_getElem l0, List.getElem?_eq_getElem l1, hr]
  · obtain ⟨⟨t, ht⟩, -⟩ := distribute_head box rest.reverse ([pool[(seeds box pool).1]], box pool[(seeds box pool).1])
      ([pool[(seeds box pool).2]], box pool[(seeds box pool).2])
    rw [ht]; simp
  · obtain ⟨-, ⟨t, ht⟩⟩ := distribute_head box rest.reverse ([pool[(seeds box pool).1]], box pool[(seeds box pool).1])
      ([pool[(seeds box pool).2]], box pool[(seeds box pool).2])
    rw [ht]; simp
  · intro hne
    refine (distribute_perm box _ _ _).trans ?_
    simp only [List.cons_append, List.nil_append]
    exact (((List.reverse_perm rest).cons _).cons _).trans (hperm hne)

/-- Items of the halves come from the pool. -/
theorem splitItems_mem {pool : List β} {A B : Side β} (h : splitItems box pool = .ok (A, B)) :
    (∀ x ∈ A.1, x ∈ pool) ∧ ∀ x ∈ B.1, x ∈ pool := by
  unfold splitItems at h
  simp only at h
  cases h0 : pool[(seeds box pool).1]? with
  | none => rw [h0] at h; simp at h
  | some a =>
    cases h1 : pool[(seeds box pool).2]? with
    | none => rw [h0, h1] at h; simp at h
    | some b =>
      rw [h0, h1] at h
      simp only at h
      cases hr : removeSeeds pool (seeds box pool).1 (seeds box pool).2 with
      | error e => rw [hr] at h; cases h
      | ok rest =>
        rw [hr] at h
        simp only [Except.ok.injEq] at h
        have hrest : ∀ x ∈ rest, x ∈ pool := by
          unfold removeSeeds at hr
          split_ifs at hr
          · cases hp : poolPop pool (seeds box pool).2 with
            | error e => rw [hp] at hr; cases hr
            | ok p => rw [hp] at hr; exact fun x hx => poolPop_mem hp x (poolPop_mem hr x hx)
          · cases hp : poolPop pool (seeds box pool).1 with
            | error e => rw [hp] at hr; cases hr
            | ok p => rw [hp] at hr; exact fun x hx => poolPop_mem hp x (poolPop_mem hr x hx)
        have hall : ∀ x ∈ (distribute box rest.reverse ([a], box a) ([b], box b)).1.1 ++
            (distribute box rest.reverse ([a], box a) ([b], box b)).2.1, x ∈ pool := by
          intro x hx
          have := (distribute_perm box _ _ _).subset hx
          simp only [List.cons_append, List.nil_append, List.mem_cons, List.mem_reverse] at this
          rcases this with rfl | rfl | hx
          · exact List.mem_of_getElem? h0
          · exact List.mem_of_getElem? h1
          · exact hrest x hx
        rw [h] at hall
        exact ⟨fun x hx => hall x (List.mem_append_left _ hx), fun x hx => hall x (List.mem_append_right _ hx)⟩

end split

/-! ### Provenance of entries -/

/-- Every entry stored in memory satisfies `Q`. -/
def Ents (Q : RBox × Nat → Prop) (h : Heap) : Prop := ∀ a, ∀ e ∈ (h.node a).ents, Q e

variable {Q : RBox × Nat → Prop}

theorem Ents.put {h : Heap} (hE : Ents Q h) (a : Nat) (f : RNode → RNode)
    (hf : (∀ e ∈ (h.node a).ents, Q e) → ∀ e ∈ (f (h.node a)).ents, Q e) : Ents Q (h.put a f) := by
  intro b e he
  rw [node_put] at he
  split_ifs at he with hc
  · obtain ⟨rfl, -⟩ := hc
    exact hf (hE a) e he
  · exact hE b e he

theorem Ents.append {h : Heap} (hE : Ents Q h) (n : RNode) (hn : ∀ e ∈ n.ents, Q e) :
    Ents Q (h ++ [n] : Heap) := by
  intro b e he
  rw [node_append] at he
  split_ifs at he
  · exact hn e he
  · exact hE b e he

theorem Ents.addKid {h : Heap} (hE : Ents Q h) (p c : Nat) : Ents Q (addKid h p c) :=
  (hE.put _ _ fun h => h).put _ _ fun h => h

theorem Ents.addEntry {h : Heap} (hE : Ents Q h) (a : Nat) (e : RBox × Nat) (he : Q e) : Ents Q (addEntry h a e) := by
  refine hE.put _ _ fun h' e' he' => ?_
  simp only [List.mem_append, List.mem_singleton] at he'
  rcases he' with he' | rfl
  · exact h' e' he'
  · exact he

theorem Ents.splitNonleaf {h h' : Heap} {a s : Nat} (hE : Ents Q h) (hs : splitNonleaf h a = .ok (h', s)) :
    Ents Q h' := by
  unfold Karta.RTree.splitNonleaf at hs
  simp only at hs
  cases hi : splitItems (fun k => (h.node k).bbox) (h.node a).kids with
  | error e => rw [hi] at hs; cases hs
  | ok AB =>
    obtain ⟨A, B⟩ := AB
    rw [hi] at hs
    simp only [Except.ok.injEq, Prod.mk.injEq] at hs
    obtain ⟨rfl, -⟩ := hs
    have h2 : Ents Q ((h.put a fun n => { n with kids := A.1, bbox := A.2 }) ++
        [⟨false, (h.node a).parent, B.1, [], B.2⟩] : Heap) :=
      (hE.put _ _ fun h => h).append _ (by simp)
    have opt : ∀ (g : Heap) (p : Nat) (o : Option Nat), Ents Q g →
        Ents Q ((o.map fun k => g.put k fun n => { n with parent := some p }).getD g) := by
      intro g p o hg
      cases o with
      | none => exact hg
      | some k => exact hg.put _ _ fun h => h
    exact opt _ _ _ (opt _ _ _ h2)

theorem Ents.adjustTree {M fuel : Nat} {h h' : Heap} {a r : Nat} {sib s' : Option Nat} (hE : Ents Q h)
    (ha : adjustTree M fuel h a sib = .ok (h', r, s')) : Ents Q h' := by
  induction fuel generalizing h a sib with
  | zero => cases ha
  | succ fuel ih =>
    rw [Karta.RTree.adjustTree] at ha
    cases hp : (h.node a).parent with
    | none => rw [hp] at ha; cases ha; exact hE
    | some p =>
      rw [hp] at ha
      simp only at ha
      have h1 : Ents Q (h.put p fun n => { n with bbox := refreshBox h p sib }) := hE.put _ _ fun h => h
      cases sib with
      | none => exact ih h1 ha
      | some s =>
        simp only at ha
        have h2 := h1.addKid p s
        split_ifs at ha with hc
        · cases hs : Karta.RTree.splitNonleaf (Karta.RTree.addKid (h.put p fun n => { n with bbox := refreshBox h p (some s) }) p s) p with
          | error e => rw [hs] at ha; cases ha
          | ok hs' =>
            obtain ⟨h3, s3⟩ := hs'
            rw [hs] at ha
            exact ih (h2.splitNonleaf hs) ha
        · exact ih h2 ha

theorem splitLeaf_ents {M : Nat} {h h' : Heap} {a s : Nat} (hE : ∀ b, b ≠ a → ∀ e ∈ (h.node b).ents, Q e)
    (hAB : ∀ A B, splitItems Prod.fst (h.node a).ents = .ok (A, B) → (∀ e ∈ A.1, Q e) ∧ ∀ e ∈ B.1, Q e)
    (hs : splitLeaf M h a = .ok (h', s)) : Ents Q h' := by
  unfold Karta.RTree.splitLeaf at hs
  simp only at hs
  cases hi : splitItems Prod.fst (h.node a).ents with
  | error e => rw [hi] at hs; cases hs
  | ok AB =>
    obtain ⟨⟨A, bA⟩, ⟨B, bB⟩⟩ := AB
    rw [hi] at hs
    obtain ⟨mA, mB⟩ := hAB _ _ hi
    cases A with
    | nil => simp at hs
    | cons e0 At =>
      cases B with
      | nil => simp at hs
      | cons e1 Bt =>
        simp only at hs mA mB
        have q0 : Q e0 := mA e0 (by simp)
        have q1 : Q e1 := mB e1 (by simp)
        set h1 : Heap := (h.put a fun n => { n with ents := [] }) ++ [⟨true, (h.node a).parent, [], [], sentinel⟩] with hh1
        have E1 : Ents Q h1 := by
          refine Ents.append ?_ _ (by simp)
          intro b e he
          rw [node_put] at he
          split_ifs at he with hc
          · simp at he
          · by_cases hb : b = a
            · subst hb
              have : ¬ b < h.length := fun hl => hc ⟨rfl, hl⟩
              unfold Heap.node at he
              rw [List.getElem?_eq_none (by omega)] at he
              simp at he
            · exact hE b hb e he
        cases ht : Karta.RTree.adjustTree M (h1.length + 1) (Karta.RTree.addEntry h1 a e0) a none with
        | error e => rw [ht] at hs; cases hs
        | ok r2 =>
          obtain ⟨h2, rr, ss⟩ := r2
          rw [ht] at hs
          simp only at hs
          have E2 : Ents Q h2 := (E1.addEntry a e0 q0).adjustTree ht
          cases ht3 : Karta.RTree.adjustTree M (h1.length + 1) (Karta.RTree.addEntry h2 h.length e1) h.length none with
          | error e => rw [ht3] at hs; cases hs
          | ok r3 =>
            obtain ⟨h3, rr3, ss3⟩ := r3
            rw [ht3] at hs
            simp only [Except.ok.injEq, Prod.mk.injEq] at hs
            obtain ⟨rfl, -⟩ := hs
            have E3 : Ents Q h3 := (E2.addEntry _ e1 q1).adjustTree ht3
            exact (E3.put _ _ fun _ => mA).put _ _ fun _ => mB

theorem Ents.splitLeaf {M : Nat} {h h' : Heap} {a s : Nat} (hE : Ents Q h) (hs : splitLeaf M h a = .ok (h', s)) :
    Ents Q h' := by
  refine splitLeaf_ents (fun b _ => hE b) ?_ hs
  intro A B e
  obtain ⟨mA, mB⟩ := splitItems_mem _ e
  exact ⟨fun e he => hE a e (mA e he), fun e he => hE a e (mB e he)⟩

/-- The division step of `rt_insert`. -/
def maybeSplit (M : Nat) (h : Heap) (leaf : Nat) : Except Err (Heap × Option Nat) :=
  if (h.node leaf).ents.length > M then
    (match splitLeaf M h leaf with
      | .error e => .error e
      | .ok (h2, s) => .ok (h2, some s))
  else .ok (h, none)

/-- The last step of `rt_insert`. -/
def finish (h : Heap) (r : Nat) : Option Nat → Heap × Nat
  | none => (h, r)
  | some s => (addKid (addKid (h ++ [⟨false, none, [], [], sentinel⟩] : Heap) h.length r) h.length s, h.length)

theorem insert_eq (M : Nat) (h : Heap) (root : Nat) (b : RBox) (idx : Nat) :
    insert M h root b idx = (chooseLeaf b (h.length + 1) h root).bind fun leaf =>
      (maybeSplit M (addEntry h leaf (b, idx)) leaf).bind fun q =>
        (adjustTree M (q.1.length + 1) q.1 leaf q.2).map fun r => finish r.1 r.2.1 r.2.2 := by
  unfold insert maybeSplit
  cases chooseLeaf b (h.length + 1) h root with
  | error e => rfl
  | ok leaf =>
    simp only [Except.bind]
    split_ifs with hc
    · cases splitLeaf M (addEntry h leaf (b, idx)) leaf with
      | error e => rfl
      | ok q =>
        simp only
        cases adjustTree M (q.1.length + 1) q.1 leaf (some q.2) with
        | error e => rfl
        | ok r =>
          obtain ⟨h3, r1, s3⟩ := r
          cases s3 <;> rfl
    · simp only
      cases adjustTree M ((addEntry h leaf (b, idx)).length + 1) (addEntry h leaf (b, idx)) leaf none with
      | error e => rfl
      | ok r =>
        obtain ⟨h3, r1, s3⟩ := r
        cases s3 <;> rfl

theorem Ents.maybeSplit {M : Nat} {h : Heap} {leaf : Nat} {q : Heap × Option Nat} (hE : Ents Q h)
    (hm : Karta.RTree.maybeSplit M h leaf = .ok q) : Ents Q q.1 := by
  unfold Karta.RTree.maybeSplit at hm
  split_ifs at hm with hc
  · cases hs : Karta.RTree.splitLeaf M h leaf with
    | error e => rw [hs] at hm; cases hm
    | ok r => rw [hs] at hm; cases hm; exact hE.splitLeaf hs
  · cases hm; exact hE

theorem Ents.finish {h : Heap} (hE : Ents Q h) (r : Nat) (s : Option Nat) : Ents Q (finish h r s).1 := by
  cases s with
  | none => exact hE
  | some s => exact ((hE.append _ (by simp)).addKid _ _).addKid _ _

theorem Ents.insert {M : Nat} {h : Heap} {root : Nat} {b : RBox} {idx : Nat} {t : Heap × Nat} (hE : Ents Q h)
    (hq : Q (b, idx)) (hi : insert M h root b idx = .ok t) : Ents Q t.1 := by
  rw [insert_eq] at hi
  cases hc : chooseLeaf b (h.length + 1) h root with
  | error e => rw [hc] at hi; cases hi
  | ok leaf =>
    rw [hc] at hi
    simp only [Except.bind] at hi
    cases hm : Karta.RTree.maybeSplit M (Karta.RTree.addEntry h leaf (b, idx)) leaf with
    | error e => rw [hm] at hi; cases hi
    | ok q =>
      rw [hm] at hi
      simp only at hi
      have E1 := (hE.addEntry leaf _ hq).maybeSplit hm
      cases ha : Karta.RTree.adjustTree M (q.1.length + 1) q.1 leaf q.2 with
      | error e => rw [ha] at hi; cases hi
      | ok r =>
        obtain ⟨h3, r1, s3⟩ := r
        rw [ha] at hi
        cases hi
        exact (E1.adjustTree ha).finish _ _

theorem Ents.buildLoop {M : Nat} {h : Heap} {root : Nat} {bs : List RBox} {i : Nat} {t : Heap × Nat} (hE : Ents Q h)
    (hq : ∀ (k : Nat) b, bs[k]? = some b → Q (b, i + k)) (hb : buildLoop M h root bs i = .ok t) : Ents Q t.1 := by
  induction bs generalizing h root i with
  | nil => cases hb; exact hE
  | cons b bs ih =>
    rw [Karta.RTree.buildLoop] at hb
    cases hi : Karta.RTree.insert M h root b i with
    | error e => rw [hi] at hb; cases hb
    | ok t' =>
      rw [hi] at hb
      refine ih (hE.insert (by simpa using hq 0 b rfl) hi) ?_ hb
      intro k b' hk
      have := hq (k + 1) b' (by simpa using hk)
      rwa [show i + (k + 1) = i + 1 + k by omega] at this

/-- Every entry of the tree is one of the boxes, with its position in the list. -/
theorem build_ents {M : Nat} {boxes : List RBox} {t : Heap × Nat} (h : build M boxes = .ok t) :
    Ents (fun e => boxes[e.2]? = some e.1) t.1 := by
  unfold build at h
  split_ifs at h
  refine Ents.buildLoop (h := [⟨true, none, [], [], sentinel⟩]) ?_ ?_ h
  · intro a e he
    unfold Heap.node at he
    match a with
    | 0 => simp at he
    | a + 1 => simp at he
  · intro k b hk
    simpa using hk

/-- Results after visiting the node at `a`. -/
def visitFound (h : Heap) (q : RBox) (test : RBox → RBox → Bool) (a : Nat) (found : List Nat) : List Nat :=
  if (h.node a).leaf then (((h.node a).ents.filter fun e => test q e.1).map Prod.snd).reverse ++ found else found

/-- Nodes still to visit after visiting the node at `a`. -/
def visitPool (h : Heap) (q : RBox) (a : Nat) (pool : List Nat) : List Nat :=
  if (h.node a).leaf then pool else ((h.node a).kids.filter fun k => isOverlapping q (h.node k).bbox).reverse ++ pool

theorem searchLoop_nil (h : Heap) (q : RBox) (test : RBox → RBox → Bool) (count : Bool) (mx : Int) (fuel : Nat)
    (found : List Nat) : searchLoop h q test count mx (fuel + 1) [] found =
      if ((if count then found.length else 0 : Nat) : Int) = mx then some found else none := rfl

theorem searchLoop_cons (h : Heap) (q : RBox) (test : RBox → RBox → Bool) (count : Bool) (mx : Int) (fuel a : Nat)
    (pool found : List Nat) : searchLoop h q test count mx (fuel + 1) (a :: pool) found =
      if ((if count then found.length else 0 : Nat) : Int) = mx then some found
      else if visitPool h q a pool = [] then some (visitFound h q test a found)
      else searchLoop h q test count mx fuel (visitPool h q a pool) (visitFound h q test a found) := rfl

/-- Whatever a search returns passed the test in some stored entry. -/
theorem search_sound {h : Heap} {q : RBox} {test : RBox → RBox → Bool} {count : Bool} {mx : Int} {fuel : Nat}
    {pool found r : List Nat} (hE : Ents Q h) (R : Nat → Prop) (hf : ∀ i ∈ found, R i)
    (hR : ∀ e, Q e → test q e.1 = true → R e.2) (hs : searchLoop h q test count mx fuel pool found = some r) :
    ∀ i ∈ r, R i := by
  induction fuel generalizing pool found with
  | zero => cases hs
  | succ fuel ih =>
    cases pool with
    | nil =>
      rw [searchLoop_nil] at hs
      by_cases hc : ((if count then found.length else 0 : Nat) : Int) = mx
      · rw [if_pos hc] at hs; cases hs; exact hf
      · rw [if_neg hc] at hs; cases hs
    | cons a pool' =>
      rw [searchLoop_cons] at hs
      have hf' : ∀ i ∈ visitFound h q test a found, R i := by
        intro i hi
        unfold visitFound at hi
        split_ifs at hi
        · rcases List.mem_append.1 hi with hi | hi
          · rw [List.mem_reverse, List.mem_map] at hi
            obtain ⟨e, he, rfl⟩ := hi
            rw [List.mem_filter] at he
            exact hR e (hE a e he.1) he.2
          · exact hf i hi
        · exact hf i hi
      by_cases hc : ((if count then found.length else 0 : Nat) : Int) = mx
      · rw [if_pos hc] at hs; cases hs; exact hf
      · rw [if_neg hc] at hs
        by_cases hp : visitPool h q a pool' = []
        · rw [if_pos hp] at hs; cases hs; exact hf'
        · rw [if_neg hp] at hs; exact ih hf' hs

end Karta.RTree
