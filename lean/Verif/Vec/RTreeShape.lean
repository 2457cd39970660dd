import Verif.Vec.RTreeLemmas

/-!
The tree stays balanced: building it and searching it always terminate normally.
-/

namespace Karta.RTree
open Karta

/-- Two memories with the same nodes, up to entries and boxes. -/
def Same (h h' : Heap) : Prop :=
  h'.length = h.length ∧ ∀ b, (h'.node b).leaf = (h.node b).leaf ∧ (h'.node b).parent = (h.node b).parent ∧
    (h'.node b).kids = (h.node b).kids

theorem Same.refl (h : Heap) : Same h h := ⟨rfl, fun _ => ⟨rfl, rfl, rfl⟩⟩

theorem Same.trans {h1 h2 h3 : Heap} (a : Same h1 h2) (b : Same h2 h3) : Same h1 h3 :=
  ⟨b.1.trans a.1, fun k => ⟨(b.2 k).1.trans (a.2 k).1, (b.2 k).2.1.trans (a.2 k).2.1, (b.2 k).2.2.trans (a.2 k).2.2⟩⟩

theorem Same.put (h : Heap) (a : Nat) (f : RNode → RNode)
    (hf : ∀ n, (f n).leaf = n.leaf ∧ (f n).parent = n.parent ∧ (f n).kids = n.kids) : Same h (h.put a f) := by
  refine ⟨by simp, fun b => ?_⟩
  rw [node_put]
  split_ifs
  · exact hf _
  · exact ⟨rfl, rfl, rfl⟩

/-- A balanced tree of depth `L`, possibly with a second top node `sib`; `lvl` is the height of each node. -/
structure Shape (h : Heap) (root : Nat) (sib : Option Nat) (lvl : Nat → Nat) (L : Nat) : Prop where
  root_lt : root < h.length
  root_lvl : lvl root = L
  lt : L < h.length
  leaf : ∀ a < h.length, ((h.node a).leaf = true ↔ lvl a = 0)
  kids : ∀ a < h.length, ∀ k ∈ (h.node a).kids, k < h.length ∧ lvl k + 1 = lvl a
  ne : ∀ a < h.length, lvl a ≠ 0 → (h.node a).kids ≠ []
  par : ∀ a < h.length, ∀ p, (h.node a).parent = some p → p < h.length ∧ lvl p = lvl a + 1
  le : ∀ a < h.length, lvl a ≤ L
  top : ∀ a < h.length, (h.node a).parent = none → a = root ∨ sib = some a

variable {h : Heap} {root : Nat} {sib : Option Nat} {lvl : Nat → Nat} {L : Nat}

theorem Shape.same {h' : Heap} (S : Shape h root sib lvl L) (hs : Same h h') : Shape h' root sib lvl L := by
  obtain ⟨hl, hn⟩ := hs
  constructor
  · rw [hl]; exact S.root_lt
  · exact S.root_lvl
  · rw [hl]; exact S.lt
  · intro a ha; rw [(hn a).1]; exact S.leaf a (hl ▸ ha)
  · intro a ha k hk; rw [(hn a).2.2] at hk; rw [hl]; exact S.kids a (hl ▸ ha) k hk
  · intro a ha; rw [(hn a).2.2]; exact S.ne a (hl ▸ ha)
  · intro a ha p hp; rw [(hn a).2.1] at hp; rw [hl]; exact S.par a (hl ▸ ha) p hp
  · intro a ha; exact S.le a (hl ▸ ha)
  · intro a ha; rw [(hn a).2.1]; exact S.top a (hl ▸ ha)

theorem Shape.weaken (S : Shape h root none lvl L) (s : Option Nat) : Shape h root s lvl L :=
  ⟨S.root_lt, S.root_lvl, S.lt, S.leaf, S.kids, S.ne, S.par, S.le,
    fun a ha hp => (S.top a ha hp).elim .inl (by simp)⟩

/-- Without a sibling, `rt_adjust_tree` only refreshes boxes on the way up to a parentless node. -/
theorem adjust_none {M fuel : Nat} (S : Shape h root sib lvl L) {a : Nat} (ha : a < h.length) (hf : L < lvl a + fuel) :
    ∃ h' r, adjustTree M fuel h a none = .ok (h', r, none) ∧ Same h h' ∧ r < h.length ∧
      (h.node r).parent = none := by
  induction fuel generalizing h a with
  | zero => have := S.le a ha; omega
  | succ fuel ih =>
    rw [adjustTree]
    cases hp : (h.node a).parent with
    | none => exact ⟨h, a, rfl, Same.refl h, ha, hp⟩
    | some p =>
      simp only
      obtain ⟨hpl, hpv⟩ := S.par a ha p hp
      have sm : Same h (h.put p fun n => { n with bbox := refreshBox h p none }) :=
        Same.put h p _ fun n => ⟨rfl, rfl, rfl⟩
      obtain ⟨h', r, e, s', hr, hrp⟩ := ih (S.same sm) (a := p) (by simpa using hpl) (by omega)
      refine ⟨h', r, e, sm.trans s', by simpa using hr, ?_⟩
      rw [(sm.2 r).2.1] at hrp
      exact hrp

theorem Shape.addKid {p s : Nat} (S : Shape h root (some s) lvl L) (hp : p < h.length) (hs : s < h.length)
    (hl : lvl s + 1 = lvl p) : Shape (addKid h p s) root none lvl L := by
  have nd : ∀ b, b < h.length → ((Karta.RTree.addKid h p s).node b).leaf = (h.node b).leaf ∧
      ((Karta.RTree.addKid h p s).node b).parent = (if b = s then some p else (h.node b).parent) ∧
      ((Karta.RTree.addKid h p s).node b).kids = (if b = p then (h.node b).kids ++ [s] else (h.node b).kids) := by
    intro b hb
    unfold Karta.RTree.addKid
    have hsp : s ≠ p := by rintro rfl; omega
    rw [node_put, node_put]
    by_cases h1 : s = b
    · subst h1
      simp [hs, Ne.symm hsp, hsp]
    · by_cases h2 : p = b
      · subst h2; simp [h1, hp, Ne.symm hsp]
      · simp [h1, h2, Ne.symm h1, Ne.symm h2]
  constructor
  · simpa using S.root_lt
  · exact S.root_lvl
  · simpa using S.lt
  · intro a ha
    have ha' : a < h.length := by simpa using ha
    rw [(nd a ha').1]; exact S.leaf a ha'
  · intro a ha k hk
    have ha' : a < h.length := by simpa using ha
    rw [(nd a ha').2.2] at hk
    simp only [length_addKid]
    split_ifs at hk with hc
    · rcases List.mem_append.1 hk with hk | hk
      · exact S.kids a ha' k hk
      · rw [List.mem_singleton] at hk; subst hk; subst hc; exact ⟨hs, hl⟩
    · exact S.kids a ha' k hk
  · intro a ha h0
    have ha' : a < h.length := by simpa using ha
    rw [(nd a ha').2.2]
    split_ifs
    · simp
    · exact S.ne a ha' h0
  · intro a ha q hq
    have ha' : a < h.length := by simpa using ha
    rw [(nd a ha').2.1] at hq
    simp only [length_addKid]
    split_ifs at hq with hc
    · cases hq; subst hc; exact ⟨hp, hl.symm⟩
    · exact S.par a ha' q hq
  · intro a ha; exact S.le a (by simpa using ha)
  · intro a ha hq
    have ha' : a < h.length := by simpa using ha
    rw [(nd a ha').2.1] at hq
    split_ifs at hq with hc
    rcases S.top a ha' hq with h1 | h1
    · exact .inl h1
    · cases h1; exact absurd rfl hc

theorem setParent_node (g : Heap) (k p b : Nat) (hb : b < g.length) :
    ((g.put k fun n => { n with parent := some p }).node b).leaf = (g.node b).leaf ∧
    ((g.put k fun n => { n with parent := some p }).node b).parent = (if b = k then some p else (g.node b).parent) ∧
    ((g.put k fun n => { n with parent := some p }).node b).kids = (g.node b).kids := by
  rw [node_put]
  by_cases h : k = b
  · rw [if_pos ⟨h, hb⟩, if_pos h.symm]
    exact ⟨rfl, rfl, rfl⟩
  · rw [if_neg (fun h' => h h'.1), if_neg (Ne.symm h)]
    exact ⟨rfl, rfl, rfl⟩

theorem splitNonleaf_ok {a : Nat} (S : Shape h root none lvl L) (ha : a < h.length) (h0 : lvl a ≠ 0)
    (h2 : 2 ≤ (h.node a).kids.length) :
    ∃ h', splitNonleaf h a = .ok (h', h.length) ∧ h'.length = h.length + 1 ∧
      Shape h' root (some h.length) (fun b => if b = h.length then lvl a else lvl b) L := by
  obtain ⟨A, B, e, neA, neB, -⟩ := splitItems_ok (fun k => (h.node k).bbox) h2
  obtain ⟨mA, mB⟩ := splitItems_mem _ e
  obtain ⟨⟨kA, hA⟩, ⟨kB, hB⟩⟩ : (∃ k, A.1.head? = some k) ∧ ∃ k, B.1.head? = some k := by
    constructor
    · cases hA : A.1 with
      | nil => exact absurd hA neA
      | cons k t => exact ⟨k, rfl⟩
    · cases hB : B.1 with
      | nil => exact absurd hB neB
      | cons k t => exact ⟨k, rfl⟩
  have memA : kA ∈ A.1 := List.mem_of_head? hA
  have memB : kB ∈ B.1 := List.mem_of_head? hB
  set hN : Heap := (((h.put a fun n => { n with kids := A.1, bbox := A.2 }) ++
      [⟨false, (h.node a).parent, B.1, [], B.2⟩] : Heap).put kA fun n => { n with parent := some a }).put kB
        fun n => { n with parent := some h.length } with hNd
  have lenN : hN.length = h.length + 1 := by simp [hNd]
  have e' : splitNonleaf h a = .ok (hN, h.length) := by
    unfold splitNonleaf
    simp only [e, hA, hB, Option.map_some, Option.getD_some]
    rfl
  have kAk := S.kids a ha kA (mA _ memA)
  have kBk := S.kids a ha kB (mB _ memB)
  -- old nodes
  have old : ∀ b, b < h.length → (hN.node b).leaf = (h.node b).leaf ∧
      (hN.node b).parent = (if b = kB then some h.length else if b = kA then some a else (h.node b).parent) ∧
      (hN.node b).kids = (if b = a then A.1 else (h.node b).kids) := by
    intro b hb
    obtain ⟨p1, p2, p3⟩ := setParent_node (((h.put a fun n => { n with kids := A.1, bbox := A.2 }) ++
      [⟨false, (h.node a).parent, B.1, [], B.2⟩] : Heap).put kA fun n => { n with parent := some a }) kB h.length b
      (by simp; omega)
    obtain ⟨q1, q2, q3⟩ := setParent_node ((h.put a fun n => { n with kids := A.1, bbox := A.2 }) ++
      [⟨false, (h.node a).parent, B.1, [], B.2⟩] : Heap) kA a b (by simp; omega)
    have x1 : Heap.node ((h.put a fun n => { n with kids := A.1, bbox := A.2 }) ++
        [⟨false, (h.node a).parent, B.1, [], B.2⟩] : Heap) b =
        if a = b ∧ b < h.length then { h.node b with kids := A.1, bbox := A.2 } else h.node b := by
      rw [node_append, if_neg (by rw [length_put]; omega), node_put]
    rw [x1] at q1 q2 q3
    rw [hNd]
    refine ⟨p1.trans (q1.trans ?_), p2.trans ?_, p3.trans (q3.trans ?_)⟩
    · split_ifs <;> rfl
    · rw [q2]
      by_cases c1 : b = kB
      · rw [if_pos c1, if_pos c1]
      · rw [if_neg c1, if_neg c1]
        by_cases c2 : b = kA
        · rw [if_pos c2, if_pos c2]
        · rw [if_neg c2, if_neg c2]
          split_ifs <;> rfl
    · by_cases c : a = b
      · rw [if_pos ⟨c, hb⟩, if_pos c.symm]
      · rw [if_neg (fun h => c h.1), if_neg (Ne.symm c)]
  have new : (hN.node h.length).leaf = false ∧ (hN.node h.length).parent = (h.node a).parent ∧
      (hN.node h.length).kids = B.1 := by
    rw [hNd, node_put, node_put, node_append]
    have c1 : kA ≠ h.length := by omega
    have c2 : kB ≠ h.length := by omega
    simp [c1, c2]
  clear_value hN
  refine ⟨hN, e', lenN, ?_⟩
  have cases_ : ∀ b, b < hN.length → b < h.length ∨ b = h.length := by intro b hb; omega
  have lo : ∀ b, b < h.length → (if b = h.length then lvl a else lvl b) = lvl b := by
    intro b hb; rw [if_neg (by omega)]
  constructor
  · rw [lenN]; have := S.root_lt; omega
  · rw [lo _ S.root_lt]; exact S.root_lvl
  · rw [lenN]; have := S.lt; omega
  · intro b hb
    rcases cases_ b hb with hb | rfl
    · simp only [lo b hb, (old b hb).1]; exact S.leaf b hb
    · simp only [new.1, if_true]; simpa using h0
  · intro b hb k hk
    have kk : ∀ c, c < h.length → k ∈ (h.node c).kids → k < hN.length ∧
        (if k = h.length then lvl a else lvl k) + 1 = lvl c := by
      intro c hc hkc
      obtain ⟨k1, k2⟩ := S.kids c hc k hkc
      rw [lo k k1]
      exact ⟨by omega, k2⟩
    rcases cases_ b hb with hb | rfl
    · simp only [lo b hb]
      rw [(old b hb).2.2] at hk
      split_ifs at hk with hc
      · subst hc; exact kk b ha (mA k hk)
      · exact kk b hb hk
    · rw [new.2.2] at hk
      simp only [if_true]
      exact kk a ha (mB k hk)
  · intro b hb h0'
    rcases cases_ b hb with hb | rfl
    · simp only [lo b hb] at h0'
      rw [(old b hb).2.2]
      split_ifs
      · exact neA
      · exact S.ne b hb h0'
    · rw [new.2.2]; exact neB
  · intro b hb p hp
    have pp : ∀ c, c < h.length → (h.node c).parent = some p → p < hN.length ∧
        (if p = h.length then lvl a else lvl p) = lvl c + 1 := by
      intro c hc hpc
      obtain ⟨p1, p2⟩ := S.par c hc p hpc
      rw [lo p p1]
      exact ⟨by omega, p2⟩
    rcases cases_ b hb with hb | rfl
    · simp only [lo b hb]
      rw [(old b hb).2.1] at hp
      split_ifs at hp with c1 c2
      · cases hp; subst c1; simp only [if_true]; exact ⟨by omega, kBk.2.symm⟩
      · cases hp; subst c2; rw [lo a ha]; exact ⟨by omega, kAk.2.symm⟩
      · exact pp b hb hp
    · rw [new.2.1] at hp
      simp only [if_true]
      exact pp a ha hp
  · intro b hb
    rcases cases_ b hb with hb | rfl
    · simp only [lo b hb]; exact S.le b hb
    · simp only [if_true]; exact S.le a ha
  · intro b hb hp
    rcases cases_ b hb with hb | rfl
    · rw [(old b hb).2.1] at hp
      split_ifs at hp
      rcases S.top b hb hp with h1 | h1
      · exact .inl h1
      · cases h1
    · exact .inr rfl

/-- With a sibling, `rt_adjust_tree` ends at the root. -/
theorem adjust_some {M fuel : Nat} (hM : 1 ≤ M) {a s : Nat} (S : Shape h root (some s) lvl L) (ha : a < h.length)
    (hs : s < h.length) (hl : lvl s = lvl a) (hne : s ≠ a) (hf : L < lvl a + fuel) :
    ∃ h' s' lvl', adjustTree M fuel h a (some s) = .ok (h', root, s') ∧ Shape h' root s' lvl' L ∧
      ∀ x, s' = some x → x < h'.length ∧ lvl' x = L := by
  induction fuel generalizing h a s lvl with
  | zero => have := S.le a ha; omega
  | succ fuel ih =>
    rw [adjustTree]
    cases hp : (h.node a).parent with
    | none =>
      have : a = root := by
        rcases S.top a ha hp with h1 | h1
        · exact h1
        · cases h1; exact absurd rfl hne
      subst this
      refine ⟨h, some s, lvl, rfl, S, ?_⟩
      rintro x rfl'
      cases rfl'
      exact ⟨hs, hl.trans S.root_lvl⟩
    | some p =>
      simp only
      obtain ⟨hpl, hpv⟩ := S.par a ha p hp
      have sm : Same h (h.put p fun n => { n with bbox := refreshBox h p (some s) }) :=
        Same.put h p _ fun n => ⟨rfl, rfl, rfl⟩
      have S1 := S.same sm
      have S2 := S1.addKid (p := p) (by simpa using hpl) (by simpa using hs) (by omega)
      set h2 := addKid (h.put p fun n => { n with bbox := refreshBox h p (some s) }) p s with hh2
      have l2 : h2.length = h.length := by simp [hh2]
      clear_value h2
      by_cases hc : (h2.node p).kids.length > M
      · rw [if_pos hc]
        obtain ⟨h3, e3, l3, S3⟩ := splitNonleaf_ok S2 (a := p) (by omega) (by omega) (by omega)
        rw [e3]
        have hpe : p ≠ h2.length := by omega
        exact ih S3 (a := p) (by omega) (by omega) (by simp [hpe]) (by omega) (by simp [hpe]; omega)
      · rw [if_neg hc]
        obtain ⟨h', r, e, sm', hr, hrp⟩ := adjust_none (M := M) S2 (a := p) (fuel := fuel) (by omega) (by omega)
        have : r = root := (S2.top r hr hrp).elim id (by simp)
        subst this
        exact ⟨h', none, lvl, e, S2.same sm', by simp⟩

theorem splitLeaf_ok {M a : Nat} (S : Shape h root none lvl L) (ha : a < h.length) (h0 : lvl a = 0)
    (h2 : 2 ≤ (h.node a).ents.length) :
    ∃ h', splitLeaf M h a = .ok (h', h.length) ∧ h'.length = h.length + 1 ∧
      Shape h' root (some h.length) (fun b => if b = h.length then 0 else lvl b) L := by
  obtain ⟨⟨A, bA⟩, ⟨B, bB⟩, e, neA, neB, -⟩ := splitItems_ok Prod.fst h2
  unfold splitLeaf
  simp only [e]
  simp only at neA neB
  cases A with
  | nil => exact absurd rfl neA
  | cons e0 At =>
  cases B with
  | nil => exact absurd rfl neB
  | cons e1 Bt =>
  simp only
  set h1 : Heap := (h.put a fun n => { n with ents := [] }) ++ [⟨true, (h.node a).parent, [], [], sentinel⟩] with hh1
  have l1 : h1.length = h.length + 1 := by simp [hh1]
  have S1 : Shape h1 root (some h.length) (fun b => if b = h.length then 0 else lvl b) L := by
    have old : ∀ b, b < h.length → (h1.node b).leaf = (h.node b).leaf ∧
        (h1.node b).parent = (h.node b).parent ∧ (h1.node b).kids = (h.node b).kids := by
      intro b hb
      rw [hh1, node_append, if_neg (by simp; omega)]
      exact (Same.put h a (fun n => { n with ents := [] }) fun n => ⟨rfl, rfl, rfl⟩).2 b
    have new : h1.node h.length = ⟨true, (h.node a).parent, [], [], sentinel⟩ := by
      rw [hh1, node_append, if_pos (by simp)]
    clear_value h1
    have cases_ : ∀ b, b < h1.length → b < h.length ∨ b = h.length := by intro b hb; omega
    have lo : ∀ b, b < h.length → (if b = h.length then 0 else lvl b) = lvl b := by
      intro b hb; rw [if_neg (by omega)]
    constructor
    · rw [l1]; have := S.root_lt; omega
    · rw [lo _ S.root_lt]; exact S.root_lvl
    · rw [l1]; have := S.lt; omega
    · intro b hb
      rcases cases_ b hb with hb | rfl
      · simp only [lo b hb, (old b hb).1]; exact S.leaf b hb
      · simp [new]
    · intro b hb k hk
      rcases cases_ b hb with hb | rfl
      · rw [(old b hb).2.2] at hk
        obtain ⟨k1, k2⟩ := S.kids b hb k hk
        simp only [lo b hb, lo k k1]
        exact ⟨by omega, k2⟩
      · simp [new] at hk
    · intro b hb h0'
      rcases cases_ b hb with hb | rfl
      · simp only [lo b hb] at h0'
        rw [(old b hb).2.2]
        exact S.ne b hb h0'
      · simp at h0'
    · intro b hb p hp
      rcases cases_ b hb with hb | rfl
      · rw [(old b hb).2.1] at hp
        obtain ⟨p1, p2⟩ := S.par b hb p hp
        simp only [lo b hb, lo p p1]
        exact ⟨by omega, p2⟩
      · rw [new] at hp
        obtain ⟨p1, p2⟩ := S.par a ha p hp
        simp only [lo p p1, if_true]
        exact ⟨by omega, by omega⟩
    · intro b hb
      rcases cases_ b hb with hb | rfl
      · simp only [lo b hb]; exact S.le b hb
      · simp
    · intro b hb hp
      rcases cases_ b hb with hb | rfl
      · rw [(old b hb).2.1] at hp
        exact (S.top b hb hp).elim .inl (by simp)
      · exact .inr rfl
  clear_value h1
  have sE : ∀ (g : Heap) (c : Nat) (e : RBox × Nat), Same g (addEntry g c e) := fun g c e =>
    Same.put g c _ fun n => ⟨rfl, rfl, rfl⟩
  have S1' := S1.same (sE h1 a e0)
  obtain ⟨hh2, r2, e2, sm2, -, -⟩ := adjust_none (M := M) (fuel := h1.length + 1) S1' (a := a)
    (by simp; omega) (by have := S.lt; omega)
  rw [e2]
  have S2 := S1'.same sm2
  have S2' := S2.same (sE hh2 h.length e1)
  have l2 : hh2.length = h1.length := by rw [sm2.1]; simp
  obtain ⟨hh3, r3, e3, sm3, -, -⟩ := adjust_none (M := M) (fuel := h1.length + 1) S2' (a := h.length)
    (by simp; omega) (by have := S.lt; omega)
  simp only [e3]
  have l3 : hh3.length = h1.length := by rw [sm3.1]; simp [l2]
  refine ⟨_, rfl, by simp [l3, l1], ?_⟩
  exact ((S2'.same sm3).same (Same.put hh3 a (fun n => { n with ents := e0 :: At, bbox := bA }) fun n => ⟨rfl, rfl, rfl⟩)).same
    (Same.put _ h.length (fun n => { n with ents := e1 :: Bt, bbox := bB }) fun n => ⟨rfl, rfl, rfl⟩)

theorem bestKid_mem (h : Heap) (b : RBox) (ks : List Nat) (best : Nat) (v : ℚ) :
    bestKid h b ks best v = best ∨ bestKid h b ks best v ∈ ks := by
  induction ks generalizing best v with
  | nil => exact .inl rfl
  | cons k ks ih =>
    rw [bestKid]
    split_ifs
    · rcases ih k (volumeExpanded (h.node k).bbox b) with h1 | h1
      · right; rw [h1]; simp
      · right; exact List.mem_cons_of_mem _ h1
    · rcases ih best v with h1 | h1
      · left; exact h1
      · right; exact List.mem_cons_of_mem _ h1

theorem chooseLeaf_ok {fuel a : Nat} (b : RBox) (S : Shape h root sib lvl L) (ha : a < h.length) (hf : lvl a < fuel) :
    ∃ l, chooseLeaf b fuel h a = .ok l ∧ l < h.length ∧ lvl l = 0 := by
  induction fuel generalizing a with
  | zero => omega
  | succ fuel ih =>
    rw [chooseLeaf]
    by_cases hl : (h.node a).leaf = true
    · rw [if_pos hl]
      exact ⟨a, rfl, ha, (S.leaf a ha).1 hl⟩
    · rw [if_neg hl]
      have h0 : lvl a ≠ 0 := fun h' => hl ((S.leaf a ha).2 h')
      cases hk : (h.node a).kids with
      | nil => exact absurd hk (S.ne a ha h0)
      | cons k ks =>
        simp only
        have : bestKid h b ks k (volumeExpanded (h.node k).bbox b) ∈ (h.node a).kids := by
          rw [hk]
          rcases bestKid_mem h b ks k (volumeExpanded (h.node k).bbox b) with h1 | h1
          · rw [h1]; simp
          · exact List.mem_cons_of_mem _ h1
        obtain ⟨k1, k2⟩ := S.kids a ha _ this
        exact ih k1 (by omega)

/-- Joining two top nodes under a new root. -/
theorem Shape.join {s : Nat} (S : Shape h root (some s) lvl L) (hs : s < h.length) (hl : lvl s = L) :
    Shape (finish h root (some s)).1 h.length none (fun b => if b = h.length then L + 1 else lvl b) (L + 1) := by
  set hN : Heap := h ++ [⟨false, none, [], [], sentinel⟩] with hNd
  have lN : hN.length = h.length + 1 := by simp [hNd]
  have rl := S.root_lt
  have e : (finish h root (some s)).1 = Karta.RTree.addKid (Karta.RTree.addKid hN h.length root) h.length s := rfl
  rw [e]
  have nd : ∀ b, b < h.length + 1 →
      ((Karta.RTree.addKid (Karta.RTree.addKid hN h.length root) h.length s).node b).leaf = (if b = h.length then false else (h.node b).leaf) ∧
      ((Karta.RTree.addKid (Karta.RTree.addKid hN h.length root) h.length s).node b).parent =
        (if b = s ∨ b = root then some h.length else if b = h.length then none else (h.node b).parent) ∧
      ((Karta.RTree.addKid (Karta.RTree.addKid hN h.length root) h.length s).node b).kids =
        (if b = h.length then [root, s] else (h.node b).kids) := by
    intro b hb
    unfold Karta.RTree.addKid
    rw [node_put, node_put, node_put, node_put]
    have x : hN.node b = if b = h.length then ⟨false, none, [], [], sentinel⟩ else h.node b := node_append h _ b
    rw [x]
    simp only [length_put, lN, hb, and_true]
    have c1 : s ≠ h.length := by omega
    have c2 : root ≠ h.length := by omega
    by_cases hb' : b = h.length
    · subst hb'
      simp [c1, c2, Ne.symm c1, Ne.symm c2]
    · by_cases b1 : s = b
      · by_cases b2 : root = b
        · simp [hb', Ne.symm hb', b1, b2]
        · simp [hb', Ne.symm hb', b1, b2]
      · by_cases b2 : root = b
        · simp [hb', Ne.symm hb', b1, b2]
        · simp [hb', Ne.symm hb', b1, b2, Ne.symm b1, Ne.symm b2]
  have lF : (Karta.RTree.addKid (Karta.RTree.addKid hN h.length root) h.length s).length = h.length + 1 := by simp [lN]
  generalize Karta.RTree.addKid (Karta.RTree.addKid hN h.length root) h.length s = F at nd lF
  have lo : ∀ b, b < h.length → (if b = h.length then L + 1 else lvl b) = lvl b := by
    intro b hb; rw [if_neg (by omega)]
  have cases_ : ∀ b, b < F.length → b < h.length ∨ b = h.length := by intro b hb; omega
  constructor
  · omega
  · simp
  · have := S.lt; omega
  · intro b hb
    rw [(nd b (by omega)).1]
    rcases cases_ b hb with hb | rfl
    · simp only [lo b hb]; rw [if_neg (by omega)]; exact S.leaf b hb
    · simp
  · intro b hb k hk
    rw [(nd b (by omega)).2.2] at hk
    rcases cases_ b hb with hb | rfl
    · rw [if_neg (by omega)] at hk
      obtain ⟨k1, k2⟩ := S.kids b hb k hk
      simp only [lo b hb, lo k k1]
      exact ⟨by omega, k2⟩
    · simp only [if_true, List.mem_cons, List.not_mem_nil, or_false] at hk ⊢
      rcases hk with rfl | rfl
      · rw [lo _ rl, S.root_lvl]; exact ⟨by omega, rfl⟩
      · rw [lo _ hs, hl]; exact ⟨by omega, rfl⟩
  · intro b hb h0
    rw [(nd b (by omega)).2.2]
    rcases cases_ b hb with hb | rfl
    · simp only [lo b hb] at h0
      rw [if_neg (by omega)]; exact S.ne b hb h0
    · simp
  · intro b hb p hp
    rw [(nd b (by omega)).2.1] at hp
    rcases cases_ b hb with hb | rfl
    · simp only [lo b hb]
      split_ifs at hp with c1 c2
      · cases hp
        simp only [if_true]
        refine ⟨by omega, ?_⟩
        rcases c1 with rfl | rfl
        · rw [hl]
        · rw [S.root_lvl]
      · obtain ⟨p1, p2⟩ := S.par b hb p hp
        rw [lo p p1]; exact ⟨by omega, p2⟩
    · rw [if_neg (by omega)] at hp; simp at hp
  · intro b hb
    rcases cases_ b hb with hb | rfl
    · simp only [lo b hb]; have := S.le b hb; omega
    · simp
  · intro b hb hp
    rw [(nd b (by omega)).2.1] at hp
    rcases cases_ b hb with hb | rfl
    · exfalso
      split_ifs at hp with c1 c2
      · omega
      · rcases S.top b hb hp with h1 | h1
        · exact c1 (.inr h1)
        · cases h1; exact c1 (.inl rfl)
    · exact .inl rfl

theorem insert_ok {M : Nat} (hM : 1 ≤ M) (S : Shape h root none lvl L) (b : RBox) (i : Nat) :
    ∃ h' r' lvl' L', insert M h root b i = .ok (h', r') ∧ Shape h' r' none lvl' L' := by
  rw [insert_eq]
  obtain ⟨l, e, hl, h0⟩ := chooseLeaf_ok (fuel := h.length + 1) b S S.root_lt (by rw [S.root_lvl]; have := S.lt; omega)
  rw [e]
  simp only [Except.bind]
  have S1 : Shape (addEntry h l (b, i)) root none lvl L := S.same (Same.put h l _ fun n => ⟨rfl, rfl, rfl⟩)
  have l1 : (addEntry h l (b, i)).length = h.length := by simp
  generalize addEntry h l (b, i) = h1 at S1 l1
  unfold maybeSplit
  by_cases hc : (h1.node l).ents.length > M
  · rw [if_pos hc]
    obtain ⟨h2, e2, l2, S2⟩ := splitLeaf_ok (M := M) S1 (a := l) (by omega) h0 (by omega)
    rw [e2]
    simp only
    have hle : l ≠ h1.length := by omega
    obtain ⟨h3, s3, lvl3, e3, S3, hs3⟩ := adjust_some (M := M) (fuel := h2.length + 1) hM S2 (a := l) (by omega) (by omega)
      (by simp [hle, h0]) (by omega) (by have := S.lt; simp [hle, h0]; omega)
    rw [e3]
    cases s3 with
    | none => exact ⟨h3, root, lvl3, L, rfl, S3⟩
    | some s =>
      obtain ⟨x1, x2⟩ := hs3 s rfl
      exact ⟨_, _, _, _, rfl, S3.join x1 x2⟩
  · rw [if_neg hc]
    simp only
    obtain ⟨h3, r3, e3, sm3, hr, hrp⟩ := adjust_none (M := M) (fuel := h1.length + 1) S1 (a := l) (by omega)
      (by have := S.lt; omega)
    rw [e3]
    have : r3 = root := (S1.top r3 hr hrp).elim id (by simp)
    subst this
    exact ⟨h3, r3, lvl, L, rfl, S1.same sm3⟩

theorem buildLoop_ok {M : Nat} (hM : 1 ≤ M) (bs : List RBox) (i : Nat) (S : Shape h root none lvl L) :
    ∃ h' r' lvl' L', buildLoop M h root bs i = .ok (h', r') ∧ Shape h' r' none lvl' L' := by
  induction bs generalizing h root i lvl L with
  | nil => exact ⟨h, root, lvl, L, rfl, S⟩
  | cons b bs ih =>
    rw [buildLoop]
    obtain ⟨h', r', lvl', L', e, S'⟩ := insert_ok (M := M) hM S b i
    rw [e]
    exact ih (i + 1) S'

theorem shape_empty : Shape [⟨true, none, [], [], sentinel⟩] 0 none (fun _ => 0) 0 := by
  constructor <;> simp [Heap.node]

/-- Building the index always succeeds (rtree.h never reaches its error exits). -/
theorem build_ok {M : Nat} (hM : 4 ≤ M) (boxes : List RBox) :
    ∃ h' r' lvl' L', build M boxes = .ok (h', r') ∧ Shape h' r' none lvl' L' := by
  unfold build
  rw [if_neg (by omega)]
  exact buildLoop_ok (by omega) boxes 0 shape_empty

/-- More rounds do not change the result. -/
theorem search_mono {q : RBox} {test : RBox → RBox → Bool} {count : Bool} {mx : Int} {fuel : Nat}
    {pool found r : List Nat} (hs : searchLoop h q test count mx fuel pool found = some r) (k : Nat) :
    searchLoop h q test count mx (fuel + k) pool found = some r := by
  induction fuel generalizing pool found with
  | zero => cases hs
  | succ fuel ih =>
    rw [show fuel + 1 + k = fuel + k + 1 by omega]
    cases pool with
    | nil => rw [searchLoop_nil] at hs ⊢; exact hs
    | cons a pool =>
      rw [searchLoop_cons] at hs ⊢
      by_cases hc : ((if count then found.length else 0 : Nat) : Int) = mx
      · rw [if_pos hc] at hs ⊢; exact hs
      · rw [if_neg hc] at hs ⊢
        by_cases hp : visitPool h q a pool = []
        · rw [if_pos hp] at hs ⊢; exact hs
        · rw [if_neg hp] at hs ⊢; exact ih hs

theorem search_terminates (q : RBox) (test : RBox → RBox → Bool) (count : Bool) (mx : Int)
    (S : Shape h root sib lvl L) {a : Nat} (ha : a < h.length) (found : List Nat) :
    ∃ fuel r, searchLoop h q test count mx fuel [a] found = some r := by
  let T : List Nat → Prop := fun pool => pool = [] ∨
    ∀ found, ∃ fuel r, searchLoop h q test count mx fuel pool found = some r
  have step : ∀ (a : Nat) (pool : List Nat), T (visitPool h q a pool) → T (a :: pool) := by
    intro a pool hT
    right
    intro found
    by_cases hc : ((if count then found.length else 0 : Nat) : Int) = mx
    · exact ⟨1, found, by rw [searchLoop_cons, if_pos hc]⟩
    · by_cases hp : visitPool h q a pool = []
      · exact ⟨1, visitFound h q test a found, by rw [searchLoop_cons, if_neg hc, if_pos hp]⟩
      · rcases hT with hT | hT
        · exact absurd hT hp
        · obtain ⟨fuel, r, e⟩ := hT (visitFound h q test a found)
          exact ⟨fuel + 1, r, by rw [searchLoop_cons, if_neg hc, if_neg hp]; exact e⟩
  have node : ∀ n, ∀ a < h.length, lvl a ≤ n → ∀ pool, T pool → T (a :: pool) := by
    intro n
    induction n with
    | zero =>
      intro a ha hn pool hT
      apply step
      unfold visitPool
      rw [if_pos ((S.leaf a ha).2 (by omega))]
      exact hT
    | succ n ih =>
      intro a ha hn pool hT
      apply step
      unfold visitPool
      split_ifs with hl
      · exact hT
      · have hall : ∀ k ∈ ((h.node a).kids.filter fun k => isOverlapping q (h.node k).bbox).reverse,
            k < h.length ∧ lvl k ≤ n := by
          intro k hk
          rw [List.mem_reverse, List.mem_filter] at hk
          obtain ⟨k1, k2⟩ := S.kids a ha k hk.1
          exact ⟨k1, by omega⟩
        generalize ((h.node a).kids.filter fun k => isOverlapping q (h.node k).bbox).reverse = l at hall
        induction l with
        | nil => exact hT
        | cons k l ihl =>
          rw [List.cons_append]
          exact ih k (hall k (by simp)).1 (hall k (by simp)).2 _ (ihl fun k' hk' => hall k' (List.mem_cons_of_mem _ hk'))
  rcases node (lvl a) a ha (le_refl _) [] (.inl rfl) with h1 | h1
  · cases h1
  · exact h1 found

end Karta.RTree
