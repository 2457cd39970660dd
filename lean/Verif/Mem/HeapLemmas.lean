import Verif.Mem.Heap
import Verif.Vec.QuadTreeLemmas
import Mathlib.Algebra.Order.Group.Multiset
import Mathlib.Tactic.Abel

/-!
Lemmas about the memory model of the quadtree: what each function does to the live memory, in the style of separation logic (`R` is the
memory that does not belong to the tree).
-/

namespace Karta.Mem

open Karta.Vec Karta.Vec.QT

/-- No address is handed out twice. -/
structure Heap.WF (h : Heap) : Prop where
  nodup : h.live.Nodup
  bound : ∀ a ∈ h.live, a < h.next

/-- The blocks of a tree. -/
def MTree.own : MTree → Multiset Nat
  | .leaf a b p _ _ => {a} + {b} + {p}
  | .node a b _ ch => {a} + {b} + ((ch .ul).own + (ch .ur).own + (ch .ll).own + (ch .lr).own)

theorem alloc_wf {h : Heap} (w : h.WF) : h.alloc.2.WF := by
  constructor
  · unfold Heap.alloc
    dsimp only
    rw [Multiset.nodup_cons]
    exact ⟨fun hm => absurd (w.bound _ hm) (lt_irrefl _), w.nodup⟩
  · intro a ha
    unfold Heap.alloc at ha ⊢
    dsimp only at ha ⊢
    rcases Multiset.mem_cons.mp ha with rfl | ha
    · omega
    · have := w.bound a ha; omega

theorem alloc_live (h : Heap) : h.alloc.2.live = {h.alloc.1} + h.live := by
  rw [Multiset.singleton_add]; rfl

theorem touch_ok {h : Heap} {a : Nat} (ha : a ∈ h.live) : h.touch a = .ok () := if_pos ha

theorem free_spec {h : Heap} (w : h.WF) {a : Nat} {R : Multiset Nat} (e : h.live = {a} + R) :
    ∃ h', h.free a = .ok h' ∧ h'.WF ∧ h'.live = R := by
  have hm : a ∈ h.live := by rw [e]; simp
  refine ⟨_, if_pos hm, ⟨?_, ?_⟩, ?_⟩
  · exact w.nodup.erase a
  · intro b hb
    exact w.bound b (Multiset.mem_of_mem_erase hb)
  · dsimp only
    rw [e, Multiset.singleton_add, Multiset.erase_cons_head]

theorem freeLeaf_spec {h : Heap} (w : h.WF) {a : Nat} {b : Option Nat} {p : Nat} {R : Multiset Nat}
    (e : h.live = {a} + {p} + (match b with | none => 0 | some b => {b}) + R) :
    ∃ h', freeLeaf a b p h = .ok h' ∧ h'.WF ∧ h'.live = R := by
  unfold freeLeaf
  rw [touch_ok (by rw [e]; simp)]
  cases b with
  | none =>
    obtain ⟨h1, e1, w1, l1⟩ := free_spec w (a := p) (R := {a} + R) (by rw [e]; dsimp only; abel)
    obtain ⟨h2, e2, w2, l2⟩ := free_spec w1 (a := a) (R := R) l1
    refine ⟨h2, ?_, w2, l2⟩
    simp only [Heap.freeOpt, bind, Except.bind, e1, e2]
  | some b =>
    obtain ⟨h0, e0, w0, l0⟩ := free_spec w (a := b) (R := {a} + {p} + R) (by rw [e]; dsimp only; abel)
    obtain ⟨h1, e1, w1, l1⟩ := free_spec w0 (a := p) (R := {a} + R) (by rw [l0]; abel)
    obtain ⟨h2, e2, w2, l2⟩ := free_spec w1 (a := a) (R := R) l1
    refine ⟨h2, ?_, w2, l2⟩
    simp only [Heap.freeOpt, bind, Except.bind, e0, e1, e2]

theorem addr_mem_own (t : MTree) : t.addr ∈ t.own := by
  cases t <;> simp [MTree.addr, MTree.own]

theorem bba_mem_own (t : MTree) : t.bba ∈ t.own := by
  cases t <;> simp [MTree.bba, MTree.own]

theorem freeNode_spec (t : MTree) : ∀ {h : Heap}, h.WF → ∀ {R : Multiset Nat}, h.live = t.own + R →
    ∃ h', freeNode t h = .ok h' ∧ h'.WF ∧ h'.live = R := by
  induction t with
  | leaf a b p bb ps =>
    intro h w R e
    unfold freeNode
    exact freeLeaf_spec w (by rw [e]; unfold MTree.own; dsimp only; abel)
  | node a b bb ch ih =>
    intro h w R e
    unfold freeNode
    unfold MTree.own at e
    rw [touch_ok (by rw [e]; simp)]
    obtain ⟨h1, e1, w1, l1⟩ := ih .ul w (R := {a} + {b} + ((ch .ur).own + (ch .ll).own + (ch .lr).own) + R) (by rw [e]; abel)
    obtain ⟨h2, e2, w2, l2⟩ := ih .ur w1 (R := {a} + {b} + ((ch .ll).own + (ch .lr).own) + R) (by rw [l1]; abel)
    obtain ⟨h3, e3, w3, l3⟩ := ih .ll w2 (R := {a} + {b} + ((ch .lr).own) + R) (by rw [l2]; abel)
    obtain ⟨h4, e4, w4, l4⟩ := ih .lr w3 (R := {a} + {b} + R) (by rw [l3]; abel)
    obtain ⟨h5, e5, w5, l5⟩ := free_spec w4 (a := b) (R := {a} + R) (by rw [l4]; abel)
    obtain ⟨h6, e6, w6, l6⟩ := free_spec w5 (a := a) (R := R) l5
    refine ⟨h6, ?_, w6, l6⟩
    simp only [bind, Except.bind, e1, e2, e3, e4, e5, e6]

/-- The blocks of a new leaf. -/
def LeafAddr.own (A : LeafAddr) : Multiset Nat := {A.addr} + {A.bba} + {A.posa}

theorem splitAlloc_wf {h : Heap} (w : h.WF) : (splitAlloc h).2.WF := by
  unfold splitAlloc newLeaf
  dsimp only
  iterate 13 apply alloc_wf
  exact w

theorem splitAlloc_live (h : Heap) : (splitAlloc h).2.live =
    {(splitAlloc h).1.1} + (((splitAlloc h).1.2 .ul).own + ((splitAlloc h).1.2 .ur).own + ((splitAlloc h).1.2 .ll).own +
      ((splitAlloc h).1.2 .lr).own) + h.live := by
  unfold splitAlloc newLeaf LeafAddr.own
  dsimp only
  simp only [alloc_live]
  abel

/-- The blocks of the three other leaves. -/
def others (L : Quad → LeafAddr) : Quad → Multiset Nat
  | .ul => (L .ur).own + (L .ll).own + (L .lr).own
  | .ur => (L .ul).own + (L .ll).own + (L .lr).own
  | .ll => (L .ul).own + (L .ur).own + (L .lr).own
  | .lr => (L .ul).own + (L .ur).own + (L .ll).own

theorem others_add (L : Quad → LeafAddr) (q : Quad) :
    (L q).own + others L q = (L .ul).own + (L .ur).own + (L .ll).own + (L .lr).own := by
  cases q <;> unfold others <;> abel

theorem own_setChild (L : Quad → LeafAddr) (B : Quad → Box) (P : Quad → List Pos) (a b : Nat) (bb : Box) (q : Quad) (s : MTree) :
    (MTree.node a b bb (msetChild (fun q => MTree.leaf (L q).addr (L q).bba (L q).posa (B q) (P q)) q s)).own =
      {a} + {b} + (s.own + others L q) := by
  cases q <;> simp only [MTree.own, msetChild, others, LeafAddr.own, reduceCtorEq, if_true, if_false, reduceIte] <;> abel

theorem msetChild_self (ch : Quad → MTree) (q : Quad) (s : MTree) : msetChild (msetChild ch q s) q s = msetChild ch q s := by
  funext q'; unfold msetChild; by_cases h : q' = q <;> simp [h]

theorem setChild_self (ch : Quad → Tree) (q : Quad) (s : Tree) : setChild (setChild ch q s) q s = setChild ch q s := by
  funext q'; unfold setChild; by_cases h : q' = q <;> simp [h]

theorem erase_setChild (ch : Quad → MTree) (q : Quad) (s : MTree) :
    (fun q' => (msetChild ch q s q').erase) = setChild (fun q' => (ch q').erase) q s.erase := by
  funext q'; unfold msetChild setChild; by_cases h : q' = q <;> simp [h]

theorem fits_ok {cap n : Nat} (h : n ≤ cap + 1) : fits cap n = .ok () := if_pos h

theorem touchParent_ok {h : Heap} {gp : Option (Nat × Nat)} {R : Multiset Nat} (hgp : ∀ g ∈ gp, g.1 ∈ R ∧ g.2 ∈ R)
    (hR : R ≤ h.live) : touchParent h gp = .ok () := by
  cases gp with
  | none => rfl
  | some g =>
    obtain ⟨h1, h2⟩ := hgp g rfl
    unfold touchParent
    dsimp only
    rw [touch_ok (Multiset.mem_of_le hR h1), touch_ok (Multiset.mem_of_le hR h2)]
    rfl

theorem msplit_sim (cap : Nat) (hcap : 1 ≤ cap) (fuel : Nat) : ∀ (A : LeafAddr) (gp : Option (Nat × Nat)) (bb : Box) (ps : List Pos)
    (h : Heap) (R : Multiset Nat) (t : Tree), split cap fuel bb ps = some t → ps.length ≤ cap → (∀ p ∈ ps, bb.Contains p.pt) →
    h.WF → h.live = A.own + R → (∀ g ∈ gp, g.1 ∈ R ∧ g.2 ∈ R) →
    ∃ mt h', msplit cap fuel A gp bb ps h = .ok (mt, h') ∧ mt.erase = t ∧ h'.WF ∧ h'.live = mt.own + R := by
  induction fuel with
  | zero => intro A gp bb ps h R t e; simp [split] at e
  | succ fuel ih =>
    intro A gp bb ps h R t e hl hc w el hgp
    have hlen : ∀ q, (ps.filter fun p => quadrant bb p.pt = q).length ≤ cap :=
      fun q => (List.length_filter_le _ _).trans hl
    obtain ⟨⟨⟨par, L⟩, h1⟩, hS⟩ : ∃ S, S = splitAlloc h := ⟨_, rfl⟩
    have w1 : h1.WF := by have := splitAlloc_wf w; rw [← hS] at this; exact this
    have l1 : h1.live = {par} + ((L .ul).own + (L .ur).own + (L .ll).own + (L .lr).own) + h.live := by
      have := splitAlloc_live h; rw [← hS] at this; exact this
    have again : ∀ q, cap ≤ (ps.filter fun p => quadrant bb p.pt = q).length → ∀ s,
        split cap fuel (quadBox bb q) (ps.filter fun p => quadrant bb p.pt = q) = some s →
        t = .node bb (setChild (setChild (fun q => Tree.leaf (quadBox bb q) (ps.filter fun p => quadrant bb p.pt = q))
          (quadrant bb (mid (quadBox bb q))) s) q s) →
        ∃ (ms : MTree) (h2 h3 : Heap), msplit cap fuel (L q) (some (par, A.bba)) (quadBox bb q) (ps.filter fun p => quadrant bb p.pt = q) h1 =
          .ok (ms, h2) ∧ freeLeaf A.addr none A.posa h2 = .ok h3 ∧
          (MTree.node par A.bba bb (msetChild (msetChild (fun q => MTree.leaf (L q).addr (L q).bba (L q).posa (quadBox bb q)
            (ps.filter fun p => quadrant bb p.pt = q)) (quadrant bb (mid (quadBox bb q))) ms) q ms)).erase = t ∧ h3.WF ∧
          h3.live = (MTree.node par A.bba bb (msetChild (msetChild (fun q => MTree.leaf (L q).addr (L q).bba (L q).posa (quadBox bb q)
            (ps.filter fun p => quadrant bb p.pt = q)) (quadrant bb (mid (quadBox bb q))) ms) q ms)).own + R := by
      intro q hq s es et
      obtain ⟨p, hp⟩ := List.exists_mem_of_length_pos (show 0 < (ps.filter fun p => quadrant bb p.pt = q).length by omega)
      have hp' := List.mem_filter.mp hp
      have hpq : quadrant bb p.pt = q := by simpa using hp'.2
      have hmid : quadrant bb (mid (quadBox bb q)) = q := by
        rw [← hpq]; exact quadrant_mid (hc p hp'.1)
      obtain ⟨ms, h2, e2, er, w2, l2⟩ := ih (L q) (some (par, A.bba)) (quadBox bb q) (ps.filter fun p => quadrant bb p.pt = q) h1
        ({par} + others L q + (A.own + R)) s es (hlen q)
        (by
          intro r hr
          have hr' := List.mem_filter.mp hr
          have : quadrant bb r.pt = q := by simpa using hr'.2
          rw [← this]; exact quadBox_contains (hc r hr'.1))
        w1 (by rw [l1, el, ← others_add L q]; abel)
        (by
          intro g hg
          cases hg
          dsimp only
          unfold LeafAddr.own
          constructor <;> simp)
      obtain ⟨h3, e3, w3, l3⟩ := freeLeaf_spec w2 (a := A.addr) (b := none) (p := A.posa) (R := {par} + {A.bba} + (ms.own + others L q) + R)
        (by rw [l2]; unfold LeafAddr.own; dsimp only; abel)
      refine ⟨ms, h2, h3, e2, e3, ?_, w3, ?_⟩
      · rw [et, hmid, msetChild_self, setChild_self]
        unfold MTree.erase
        rw [erase_setChild, er]
        simp only [MTree.erase]
      · rw [hmid, msetChild_self, own_setChild, l3]
    have htp : touchParent h1 gp = .ok () := by
      refine touchParent_ok (R := R) hgp ?_
      rw [l1, el]
      calc R ≤ {par} + ((L .ul).own + (L .ur).own + (L .ll).own + (L .lr).own) + A.own + R := Multiset.le_add_left _ _
        _ = _ := by abel
    have ha : A.addr ∈ h.live := by rw [el]; unfold LeafAddr.own; simp
    have hb : A.bba ∈ h.live := by rw [el]; unfold LeafAddr.own; simp
    have hp1 : A.posa ∈ h1.live := by rw [l1, el]; unfold LeafAddr.own; simp
    unfold msplit
    rw [touch_ok ha, touch_ok hb, ← hS]
    dsimp only [bind, Except.bind]
    rw [htp, touch_ok hp1]
    dsimp only
    rw [fits_ok ((hlen _).trans (Nat.le_succ _)), fits_ok ((hlen _).trans (Nat.le_succ _)), fits_ok ((hlen _).trans (Nat.le_succ _)),
      fits_ok ((hlen _).trans (Nat.le_succ _))]
    dsimp only
    unfold split at e
    dsimp only at e
    have fin : ∀ q, cap ≤ (ps.filter fun p => quadrant bb p.pt = q).length →
        (match split cap fuel (quadBox bb q) (ps.filter fun p => quadrant bb p.pt = q) with
          | none => none
          | some s => some (QT.Tree.node bb (setChild (setChild (fun q => QT.Tree.leaf (quadBox bb q) (ps.filter fun p => quadrant bb p.pt = q))
              (quadrant bb (mid (quadBox bb q))) s) q s))) = some t →
        ∃ s, split cap fuel (quadBox bb q) (ps.filter fun p => quadrant bb p.pt = q) = some s ∧
          t = .node bb (setChild (setChild (fun q => Tree.leaf (quadBox bb q) (ps.filter fun p => quadrant bb p.pt = q))
          (quadrant bb (mid (quadBox bb q))) s) q s) := by
      intro q hq e
      cases es : split cap fuel (quadBox bb q) (ps.filter fun p => quadrant bb p.pt = q) with
      | none => rw [es] at e; simp at e
      | some s => rw [es] at e; exact ⟨s, rfl, (Option.some.inj e).symm⟩
    by_cases c1 : cap ≤ (ps.filter fun p => quadrant bb p.pt = .ul).length
    · rw [if_pos c1] at e ⊢
      obtain ⟨s, es, et⟩ := fin .ul c1 e
      obtain ⟨ms, h2, h3, e2, e3, er, w3, l3⟩ := again .ul c1 s es et
      rw [e2]
      dsimp only
      rw [e3]
      exact ⟨_, _, rfl, er, w3, l3⟩
    rw [if_neg c1] at e ⊢
    by_cases c2 : cap ≤ (ps.filter fun p => quadrant bb p.pt = .ur).length
    · rw [if_pos c2] at e ⊢
      obtain ⟨s, es, et⟩ := fin .ur c2 e
      obtain ⟨ms, h2, h3, e2, e3, er, w3, l3⟩ := again .ur c2 s es et
      rw [e2]
      dsimp only
      rw [e3]
      exact ⟨_, _, rfl, er, w3, l3⟩
    rw [if_neg c2] at e ⊢
    by_cases c3 : cap ≤ (ps.filter fun p => quadrant bb p.pt = .ll).length
    · rw [if_pos c3] at e ⊢
      obtain ⟨s, es, et⟩ := fin .ll c3 e
      obtain ⟨ms, h2, h3, e2, e3, er, w3, l3⟩ := again .ll c3 s es et
      rw [e2]
      dsimp only
      rw [e3]
      exact ⟨_, _, rfl, er, w3, l3⟩
    rw [if_neg c3] at e ⊢
    by_cases c4 : cap ≤ (ps.filter fun p => quadrant bb p.pt = .lr).length
    · rw [if_pos c4] at e ⊢
      obtain ⟨s, es, et⟩ := fin .lr c4 e
      obtain ⟨ms, h2, h3, e2, e3, er, w3, l3⟩ := again .lr c4 s es et
      rw [e2]
      dsimp only
      rw [e3]
      exact ⟨_, _, rfl, er, w3, l3⟩
    rw [if_neg c4] at e ⊢
    obtain ⟨h3, e3, w3, l3⟩ := freeLeaf_spec w1 (a := A.addr) (b := none) (p := A.posa)
      (R := {par} + {A.bba} + ((L .ul).own + (L .ur).own + (L .ll).own + (L .lr).own) + R)
      (by rw [l1, el]; unfold LeafAddr.own; dsimp only; abel)
    rw [e3]
    refine ⟨_, _, rfl, ?_, w3, ?_⟩
    · rw [← Option.some.inj e]; simp only [MTree.erase]
    · rw [l3]; simp only [MTree.own, LeafAddr.own]

/-- The blocks of the three other children. -/
def otherOwn (ch : Quad → MTree) : Quad → Multiset Nat
  | .ul => (ch .ur).own + (ch .ll).own + (ch .lr).own
  | .ur => (ch .ul).own + (ch .ll).own + (ch .lr).own
  | .ll => (ch .ul).own + (ch .ur).own + (ch .lr).own
  | .lr => (ch .ul).own + (ch .ur).own + (ch .ll).own

theorem own_node (a b : Nat) (bb : Box) (ch : Quad → MTree) (q : Quad) :
    (MTree.node a b bb ch).own = (ch q).own + ({a} + {b} + otherOwn ch q) := by
  cases q <;> simp only [MTree.own, otherOwn] <;> abel

theorem own_node_set (a b : Nat) (bb : Box) (ch : Quad → MTree) (q : Quad) (s : MTree) :
    (MTree.node a b bb (msetChild ch q s)).own = s.own + ({a} + {b} + otherOwn ch q) := by
  cases q <;> simp only [MTree.own, msetChild, otherOwn, reduceCtorEq, if_true, if_false, reduceIte] <;> abel

theorem msetChild_same (ch : Quad → MTree) (q : Quad) : msetChild ch q (ch q) = ch := by
  funext q'; unfold msetChild; by_cases h : q' = q <;> simp [h]

theorem slot_self (bb : Box) (q : Quad) (t : Tree) : slot bb q t t = q := by
  cases t <;> rfl

theorem slot_child {cap : Nat} {bb : Box} {p : Pt} (hp : bb.Contains p) {c t : Tree} (hi : Inv cap c (quadBox bb (quadrant bb p))) :
    slot bb (quadrant bb p) c t = quadrant bb p := by
  cases c with
  | leaf lb ps =>
    cases t with
    | leaf _ _ => rfl
    | node _ _ =>
      unfold slot
      rw [hi.1]
      exact quadrant_mid hp
  | node _ _ => cases t <;> rfl

theorem minsert_sim (cap : Nat) (hcap : 1 ≤ cap) (fuel : Nat) (t : MTree) : ∀ (gp : Option (Nat × Nat)) (bb : Box) (p : Pos)
    (h : Heap) (R : Multiset Nat) (d : Option Nat) (t' : Tree), Inv cap t.erase bb → bb.Contains p.pt →
    QT.insert cap fuel t.erase p = some (d, t') → h.WF → h.live = t.own + R → (∀ g ∈ gp, g.1 ∈ R ∧ g.2 ∈ R) →
    ∃ mt h', minsert cap fuel t gp p h = .ok (d, mt, h') ∧ mt.erase = t' ∧ h'.WF ∧ h'.live = mt.own + R ∧ (d ≠ none → mt = t) := by
  induction t with
  | leaf a b pa lb ps =>
    intro gp bb p h R d t' hi hp e w el hgp
    obtain ⟨hbb, hc, hl, hd⟩ := hi
    subst hbb
    rw [show (MTree.leaf a b pa lb ps).erase = .leaf lb ps from rfl] at e
    unfold QT.insert at e
    unfold minsert
    unfold MTree.own at el
    rw [touch_ok (by rw [el]; simp), touch_ok (by rw [el]; simp)]
    dsimp only [bind, Except.bind]
    cases ed : duplicate p ps with
    | some i =>
      rw [ed] at e
      dsimp only at e ⊢
      obtain ⟨rfl, rfl⟩ := Prod.mk.inj (Option.some.inj e)
      exact ⟨_, _, rfl, rfl, w, el, fun _ => rfl⟩
    | none =>
      rw [ed] at e
      dsimp only at e ⊢
      have hl2 : (ps ++ [p]).length ≤ cap := by rw [List.length_append, List.length_singleton]; omega
      rw [fits_ok (hl2.trans (Nat.le_succ _))]
      dsimp only
      by_cases hs : cap ≤ (ps ++ [p]).length
      · rw [if_pos hs] at e ⊢
        cases es : split cap fuel lb (ps ++ [p]) with
        | none => rw [es] at e; simp at e
        | some s =>
          rw [es] at e
          obtain ⟨rfl, rfl⟩ := Prod.mk.inj (Option.some.inj e)
          obtain ⟨mt, h', e1, e2, w', l'⟩ := msplit_sim cap hcap fuel ⟨a, b, pa⟩ gp lb (ps ++ [p]) h R s es hl2
            (by
              intro r hr
              rcases List.mem_append.mp hr with hr | hr
              · exact hc r hr
              · rw [List.mem_singleton.mp hr]; exact hp)
            w el hgp
          rw [e1]
          exact ⟨mt, h', rfl, e2, w', l', fun hn => absurd rfl hn⟩
      · rw [if_neg hs] at e ⊢
        obtain ⟨rfl, rfl⟩ := Prod.mk.inj (Option.some.inj e)
        exact ⟨_, _, rfl, rfl, w, el, fun hn => absurd rfl hn⟩
  | node a b nb ch ih =>
    intro gp bb p h R d t' hi hp e w el hgp
    obtain ⟨hbb, hch⟩ := hi
    subst hbb
    rw [show (MTree.node a b nb ch).erase = .node nb (fun q => (ch q).erase) from rfl] at e
    unfold QT.insert at e
    dsimp only at e
    unfold minsert
    rw [touch_ok (by rw [el]; unfold MTree.own; simp), touch_ok (by rw [el]; unfold MTree.own; simp)]
    dsimp only [bind, Except.bind]
    cases ei : QT.insert cap fuel (ch (quadrant nb p.pt)).erase p with
    | none => rw [ei] at e; simp at e
    | some r =>
      obtain ⟨d0, t0⟩ := r
      rw [ei] at e
      obtain ⟨rfl, rfl⟩ := Prod.mk.inj (Option.some.inj e)
      obtain ⟨mt, h', e1, e2, w', l', hsame⟩ := ih (quadrant nb p.pt) (some (a, b)) (quadBox nb (quadrant nb p.pt)) p h
        ({a} + {b} + otherOwn ch (quadrant nb p.pt) + R) d0 t0 (hch _).1 (quadBox_contains hp) ei w
        (by rw [el, own_node a b nb ch (quadrant nb p.pt)]; abel)
        (by intro g hg; cases hg; dsimp only; constructor <;> simp)
      rw [e1]
      have hslot := slot_child hp (t := t0) (hch (quadrant nb p.pt)).1
      refine ⟨_, h', rfl, ?_, w', ?_, ?_⟩
      · dsimp only
        rw [e2, hslot, show ∀ c, (MTree.node a b nb c).erase = .node nb (fun q => (c q).erase) from fun _ => rfl, erase_setChild, e2]
      · dsimp only
        rw [e2, hslot, own_node_set, l']
        abel
      · intro hn
        have := hsame hn
        subst this
        dsimp only
        rw [slot_self, msetChild_same]

end Karta.Mem
