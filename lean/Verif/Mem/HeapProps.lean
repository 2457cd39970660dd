import Verif.Mem.HeapLemmas
import Verif.Vec.QuadTreeProps

/-!
C132: memory over the life of a quadtree.  C133: memory used by searches.
-/

namespace Karta.Mem

open Karta.Vec Karta.Vec.QT

/-- The points before the first one that is not a number. -/
def upTo : List (Option Pt) → List Pt
  | [] => []
  | none :: _ => []
  | some p :: ps => p :: upTo ps

theorem mbuildLoop_sim {cap : Nat} (hcap : 1 ≤ cap) (fuel : Nat) (bb : Box) (R : Multiset Nat) : ∀ (pts : List (Option Pt)) (i : Nat)
    (s : MState) (h : Heap) (s' : State), (∀ p ∈ upTo pts, bb.Contains p) → Inv cap s.root.erase bb →
    buildLoop cap fuel (upTo pts) i ⟨s.root.erase, s.dups⟩ = some s' → h.WF → h.live = s.root.own + R →
    ∃ ms h', mbuildLoop cap fuel pts i s h = .ok (decide (none ∈ pts), ms, h') ∧ ms.root.erase = s'.root ∧ ms.dups = s'.dups ∧
      h'.WF ∧ h'.live = ms.root.own + R
  | [], i, s, h, s', _, _, e, w, el => by
    cases Option.some.inj e
    exact ⟨s, h, rfl, rfl, rfl, w, el⟩
  | none :: pts, i, s, h, s', _, _, e, w, el => by
    cases Option.some.inj e
    exact ⟨s, h, by simp [mbuildLoop], rfl, rfl, w, el⟩
  | some p :: pts, i, s, h, s', hc, hi, e, w, el => by
    have hp : bb.Contains p := hc p (by simp [upTo])
    have hc' : ∀ p ∈ upTo pts, bb.Contains p := fun r hr => hc r (by simp [upTo, hr])
    rw [show upTo (some p :: pts) = p :: upTo pts from rfl] at e
    unfold buildLoop at e
    dsimp only at e
    have hdec : decide (none ∈ some p :: pts) = decide (none ∈ pts) := by simp
    rw [hdec]
    unfold mbuildLoop
    dsimp only [bind, Except.bind]
    cases ei : QT.insert cap fuel s.root.erase ⟨i, p⟩ with
    | none => rw [ei] at e; simp at e
    | some r =>
      obtain ⟨d, t⟩ := r
      rw [ei] at e
      obtain ⟨mt, h1, e1, er, w1, l1, hsame⟩ := minsert_sim cap hcap fuel s.root none bb ⟨i, p⟩ h.alloc.2 ({h.alloc.1} + R) d t hi hp ei
        (alloc_wf w) (by rw [alloc_live, el]; abel) (by intro g hg; cases hg)
      obtain ⟨h2, e2, w2, l2⟩ := free_spec w1 (a := h.alloc.1) (R := mt.own + R) (by rw [l1]; abel)
      rw [e1]
      dsimp only
      rw [e2]
      dsimp only
      have hins := insert_spec hcap fuel s.root.erase bb ⟨i, p⟩ hi hp d t ei
      cases d with
      | some k =>
        dsimp only at e ⊢
        have := hsame (by simp)
        subst this
        exact mbuildLoop_sim hcap fuel bb R pts (i + 1) ⟨s.root, addDup s.dups k i⟩ h2 s' hc' hi e w2 l2
      | none =>
        dsimp only at e ⊢
        subst er
        exact mbuildLoop_sim hcap fuel bb R pts (i + 1) ⟨mt, s.dups⟩ h2 s' hc' (hins.2 rfl).1 e w2 l2

theorem mbuild_sim {cap : Nat} (hcap : 2 ≤ cap) (bb : Box) (pts : List (Option Pt)) (hc : ∀ p ∈ upTo pts, bb.Contains p) (h : Heap)
    (w : h.WF) : ∃ N, ∀ fuel, N ≤ fuel → ∃ s ms h', buildLoop cap fuel (upTo pts) 0 ⟨.leaf bb [], fun _ => []⟩ = some s ∧
      mbuild cap fuel bb pts h = .ok (decide (none ∈ pts), ms, h') ∧ ms.root.erase = s.root ∧ ms.dups = s.dups ∧
      h'.WF ∧ h'.live = ms.root.own + h.live := by
  obtain ⟨N, s, e⟩ := exists_buildLoop hcap (upTo pts) hc (upTo pts) 0 rfl _ (init_inv (by omega) bb (upTo pts))
  refine ⟨N, fun fuel hf => ?_⟩
  have e' := buildLoop_mono_le cap hf _ _ _ _ e
  refine ⟨s, ?_⟩
  obtain ⟨ms, h', e1, e2, e3, w', l'⟩ := mbuildLoop_sim (by omega) fuel bb h.live pts 0
    ⟨.leaf (newLeaf h.alloc.1 h.alloc.2).1.addr (newLeaf h.alloc.1 h.alloc.2).1.bba (newLeaf h.alloc.1 h.alloc.2).1.posa bb [], fun _ => []⟩
    (newLeaf h.alloc.1 h.alloc.2).2 s hc (init_inv (by omega) bb (upTo pts)).inv e' (alloc_wf (alloc_wf (alloc_wf w)))
    (by unfold newLeaf MTree.own; dsimp only; simp only [alloc_live]; abel)
  exact ⟨ms, h', e', e1, e2, e3, w', l'⟩

/-! ### Pools -/

/-- The pool `p` lives in `h` beside the memory `R`. -/
structure PoolIn {α : Type _} (p : Pool α) (h : Heap) (R : Multiset Nat) : Prop where
  wf : h.WF
  live : h.live = {p.addr} + {p.members} + R
  count : p.items.length ≤ p.size
  pos : 0 < p.size

theorem poolNew_in {α : Type _} {h : Heap} (w : h.WF) {n : Nat} (hn : 0 < n) :
    PoolIn (poolNew n h : Pool α × Heap).1 (poolNew n h : Pool α × Heap).2 h.live where
  wf := alloc_wf (alloc_wf w)
  live := by unfold poolNew; dsimp only; simp only [alloc_live]; abel
  count := Nat.zero_le _
  pos := hn

theorem poolStore_spec {α : Type _} {p : Pool α} {h : Heap} {R : Multiset Nat} (hp : PoolIn p h R) (hlt : p.items.length < p.size) (x : α) :
    ∃ p' , poolStore p x h = .ok (p', h) ∧ PoolIn p' h R ∧ p'.items = p.items ++ [x] := by
  unfold poolStore
  rw [touch_ok (by rw [hp.live]; simp)]
  dsimp only [bind, Except.bind]
  rw [if_pos hlt]
  refine ⟨_, rfl, ⟨hp.wf, hp.live, ?_, hp.pos⟩, rfl⟩
  dsimp only
  rw [List.length_append, List.length_singleton]
  omega

theorem poolAdd_spec {α : Type _} {p : Pool α} {h : Heap} {R : Multiset Nat} (hp : PoolIn p h R) (x : α) :
    ∃ p' h', poolAdd p x h = .ok (p', h') ∧ PoolIn p' h' R ∧ p'.items = p.items ++ [x] := by
  unfold poolAdd
  rw [touch_ok (by rw [hp.live]; simp)]
  dsimp only [bind, Except.bind]
  by_cases hs : p.size = p.items.length
  · rw [if_pos hs]
    have w1 : h.alloc.2.WF := alloc_wf hp.wf
    obtain ⟨h2, e2, w2, l2⟩ := free_spec w1 (a := p.members) (R := {p.addr} + {h.alloc.1} + R) (by rw [alloc_live, hp.live]; abel)
    have er : poolResize p h = .ok ({ p with members := h.alloc.1, size := p.size * 2 }, h2) := by
      unfold poolResize
      rw [touch_ok (by rw [hp.live]; simp)]
      dsimp only [bind, Except.bind]
      rw [touch_ok (by rw [alloc_live, hp.live]; simp), e2]
      rfl
    rw [er]
    dsimp only
    have hpos := hp.pos
    obtain ⟨p', e', hp', hi⟩ := poolStore_spec (p := { p with members := h.alloc.1, size := p.size * 2 }) (h := h2) (R := R)
      ⟨w2, l2, by dsimp only; omega, by dsimp only; omega⟩ (by dsimp only; omega) x
    exact ⟨p', h2, e', hp', hi⟩
  · rw [if_neg hs]
    obtain ⟨p', e', hp', hi⟩ := poolStore_spec hp (by have := hp.count; omega) x
    exact ⟨p', h, e', hp', hi⟩

theorem poolPop_last {α : Type _} {p : Pool α} {h : Heap} {R : Multiset Nat} (hp : PoolIn p h R) {xs : List α} {x : α}
    (hx : p.items = xs ++ [x]) : ∃ p', poolPop p (p.items.length - 1) h = .ok (x, p') ∧ PoolIn p' h R ∧ p'.items = xs := by
  unfold poolPop
  rw [touch_ok (by rw [hp.live]; simp), touch_ok (by rw [hp.live]; simp)]
  dsimp only [bind, Except.bind]
  have h1 : p.items[p.items.length - 1]? = some x := by rw [hx]; simp
  have h2 : p.items.getLast? = some x := by rw [hx]; simp
  rw [h1, h2]
  dsimp only
  have h3 : (p.items.set (p.items.length - 1) x).dropLast = xs := by rw [hx]; simp
  refine ⟨_, rfl, ⟨hp.wf, hp.live, ?_, hp.pos⟩, h3⟩
  dsimp only
  rw [h3]
  have := hp.count
  rw [hx, List.length_append] at this
  omega

theorem poolDestroy_spec {α : Type _} {p : Pool α} {h : Heap} {R : Multiset Nat} (hp : PoolIn p h R) :
    ∃ h', poolDestroy p h = .ok h' ∧ h'.WF ∧ h'.live = R := by
  unfold poolDestroy
  rw [touch_ok (by rw [hp.live]; simp)]
  dsimp only [bind, Except.bind]
  obtain ⟨h1, e1, w1, l1⟩ := free_spec hp.wf (a := p.members) (R := {p.addr} + R) (by rw [hp.live]; abel)
  obtain ⟨h2, e2, w2, l2⟩ := free_spec w1 (a := p.addr) (R := R) l1
  rw [e1]
  exact ⟨h2, e2, w2, l2⟩

theorem addWhere_spec {α : Type _} (P : α → Bool) (R : Multiset Nat) : ∀ (xs : List α) (p : Pool α) (h : Heap), PoolIn p h R →
    ∃ p' h', addWhere P xs p h = .ok (p', h') ∧ PoolIn p' h' R ∧ p'.items = p.items ++ xs.filter P
  | [], p, h, hp => ⟨p, h, rfl, hp, by simp⟩
  | x :: xs, p, h, hp => by
    unfold addWhere
    dsimp only [bind, Except.bind]
    by_cases hx : P x = true
    · rw [if_pos hx]
      obtain ⟨p1, h1, e1, hp1, i1⟩ := poolAdd_spec hp x
      rw [e1]
      dsimp only
      obtain ⟨p2, h2, e2, hp2, i2⟩ := addWhere_spec P R xs p1 h1 hp1
      exact ⟨p2, h2, e2, hp2, by rw [i2, i1, List.filter_cons_of_pos hx]; simp⟩
    · rw [if_neg hx]
      obtain ⟨p2, h2, e2, hp2, i2⟩ := addWhere_spec P R xs p h hp
      exact ⟨p2, h2, e2, hp2, by rw [i2, List.filter_cons_of_neg hx]⟩

/-! ### Searching -/

theorem touchAll_ok {h : Heap} : ∀ (ts : List MTree), (∀ t ∈ ts, t.own ≤ h.live) → touchAll h ts = .ok ()
  | [], _ => rfl
  | t :: ts, ht => by
    have h1 := ht t (by simp)
    unfold touchAll
    rw [touch_ok (Multiset.mem_of_le h1 (addr_mem_own t)), touch_ok (Multiset.mem_of_le h1 (bba_mem_own t)), 
      touchAll_ok ts fun t' h' => ht t' (by simp [h'])]
    rfl

theorem erase_node (a b : Nat) (bb : Box) (ch : Quad → MTree) :
    (MTree.node a b bb ch).erase = .node bb fun q => (ch q).erase := rfl

theorem pushed_erase (q : Box) (ch : Quad → MTree) :
    ((([ch .ul, ch .ur, ch .ll, ch .lr].filter fun c => overlaps q c.erase.bb).map MTree.erase).reverse) =
      pushed q fun k => (ch k).erase := by
  rw [show [ch .ul, ch .ur, ch .ll, ch .lr] = [Quad.ul, .ur, .ll, .lr].map ch from rfl, List.filter_map, List.map_map, ← List.map_reverse,
    ← List.filter_reverse]
  rfl

theorem searchLoop_node (q b : Box) (ch : Quad → QT.Tree) (rest : List QT.Tree) :
    searchLoop q (.node b ch :: rest) = searchLoop q (pushed q ch ++ rest) := by
  generalize hst : (.node b ch :: rest : List QT.Tree) = st
  fun_cases searchLoop q st with
  | case1 => cases hst
  | case2 => cases hst
  | case3 => cases hst; rfl

theorem searchLoop_leaf (q b : Box) (ps : List Pos) (rest : List QT.Tree) :
    searchLoop q (.leaf b ps :: rest) = (ps.filter fun p => iswithin q p.pt).map Pos.id ++ searchLoop q rest := by
  generalize hst : (.leaf b ps :: rest : List QT.Tree) = st
  fun_cases searchLoop q st with
  | case1 => cases hst
  | case2 => cases hst; rfl
  | case3 => cases hst

theorem searchLoop_nil (q : Box) : searchLoop q [] = [] := by
  generalize hst : ([] : List QT.Tree) = st
  fun_cases searchLoop q st with
  | case1 => rfl
  | case2 => cases hst
  | case3 => cases hst

theorem own_child_le (a b : Nat) (bb : Box) (ch : Quad → MTree) (q : Quad) : (ch q).own ≤ (MTree.node a b bb ch).own := by
  rw [own_node a b bb ch q]; exact Multiset.le_add_right _ _

/-- Sum of the sizes of the trees of a list. -/
def sizes (ts : List MTree) : Nat := (ts.map fun t => t.erase.size).sum

theorem msearchLoop_sim (q : Box) (R : Multiset Nat) : ∀ (fuel : Nat) (st : Pool MTree) (res : Pool Pos) (h : Heap),
    sizes st.items < fuel → PoolIn st h ({res.addr} + {res.members} + R) → res.items.length ≤ res.size → 0 < res.size →
    (∀ t ∈ st.items, t.own ≤ R) →
    ∃ st' res' h', msearchLoop q fuel st res h = .ok (st', res', h') ∧ PoolIn st' h' ({res'.addr} + {res'.members} + R) ∧
      res'.items.length ≤ res'.size ∧ 0 < res'.size ∧
      res'.items.map Pos.id = res.items.map Pos.id ++ searchLoop q ((st.items.map MTree.erase).reverse)
  | 0, _, _, _, hf, _, _, _, _ => absurd hf (Nat.not_lt_zero _)
  | fuel + 1, st, res, h, hf, hst, hc, hpos, hown => by
    unfold msearchLoop
    by_cases h0 : st.items.length = 0
    · rw [if_pos h0]
      have : st.items = [] := List.length_eq_zero_iff.mp h0
      refine ⟨st, res, h, rfl, hst, hc, hpos, ?_⟩
      rw [this, List.map_nil, List.reverse_nil, searchLoop_nil, List.append_nil]
    · rw [if_neg h0]
      obtain ⟨xs, x, hx⟩ : ∃ xs x, st.items = xs ++ [x] :=
        ⟨_, _, (List.dropLast_append_getLast (List.ne_nil_of_length_pos (Nat.pos_of_ne_zero h0))).symm⟩
      obtain ⟨st1, e1, hst1, hi1⟩ := poolPop_last hst hx
      rw [e1]
      dsimp only [bind, Except.bind]
      have hRle : R ≤ h.live := by
        rw [hst.live]
        exact (Multiset.le_add_left _ _).trans (Multiset.le_add_left _ _)
      have hxown : x.own ≤ R := hown x (by rw [hx]; simp)
      have hxsown : ∀ t ∈ xs, t.own ≤ R := fun t ht => hown t (by rw [hx]; simp [ht])
      have hsz : sizes st.items = sizes xs + x.erase.size := by rw [hx]; simp [sizes]
      rw [touch_ok (Multiset.mem_of_le (hxown.trans hRle) (addr_mem_own x))]
      dsimp only
      have hrev : (st.items.map MTree.erase).reverse = x.erase :: (xs.map MTree.erase).reverse := by rw [hx]; simp
      cases x with
      | leaf a b pa bb ps =>
        dsimp only
        rw [touch_ok (Multiset.mem_of_le (hxown.trans hRle) (by unfold MTree.own; simp))]
        dsimp only
        have hres : PoolIn res h ({st1.addr} + {st1.members} + R) := ⟨hst1.wf, by rw [hst1.live]; abel, hc, hpos⟩
        obtain ⟨res2, h2, e2, hr2, i2⟩ := addWhere_spec (fun p => iswithin q p.pt) _ ps res h hres
        rw [e2]
        dsimp only
        obtain ⟨st', res', h', e', hst', hc', hpos', i'⟩ := msearchLoop_sim q R fuel st1 res2 h2
          (by rw [hi1]; rw [hsz] at hf; simp only [MTree.erase, Tree.size] at hf; omega)
          ⟨hr2.wf, by rw [hr2.live]; abel, hst1.count, hst1.pos⟩ hr2.count hr2.pos (by rw [hi1]; exact hxsown)
        refine ⟨st', res', h', e', hst', hc', hpos', ?_⟩
        rw [i', i2, hrev, hi1]
        rw [show (MTree.leaf a b pa bb ps).erase = .leaf bb ps from rfl, searchLoop_leaf]
        simp
      | node a b bb ch =>
        dsimp only
        have hch : ∀ k, (ch k).own ≤ R := fun k => (own_child_le a b bb ch k).trans hxown
        rw [touchAll_ok _ (by
          intro t ht
          simp only [List.mem_cons, List.not_mem_nil, or_false] at ht
          rcases ht with rfl | rfl | rfl | rfl <;> exact (hch _).trans hRle)]
        dsimp only
        obtain ⟨st2, h2, e2, hs2, i2⟩ := addWhere_spec (fun c => overlaps q c.erase.bb) _ [ch .ul, ch .ur, ch .ll, ch .lr] st1 h hst1
        rw [e2]
        dsimp only
        have hpsz : sizes ([ch .ul, ch .ur, ch .ll, ch .lr].filter fun c => overlaps q c.erase.bb) + 1 ≤ (MTree.node a b bb ch).erase.size := by
          have h1 := pushed_size q fun k => (ch k).erase
          rw [← pushed_erase, List.map_reverse, List.sum_reverse, List.map_map] at h1
          rw [erase_node]
          simp only [QT.Tree.size]
          unfold sizes
          simp only [Function.comp_def] at h1
          omega
        obtain ⟨st', res', h', e', hst', hc', hpos', i'⟩ := msearchLoop_sim q R fuel st2 res h2
          (by
            rw [i2, hi1]
            rw [hsz] at hf
            unfold sizes at hf hpsz ⊢
            rw [List.map_append, List.sum_append]
            omega)
          hs2 hc hpos (by
            rw [i2, hi1]
            intro t ht
            rcases List.mem_append.mp ht with ht | ht
            · exact hxsown t ht
            · have := (List.mem_filter.mp ht).1
              simp only [List.mem_cons, List.not_mem_nil, or_false] at this
              rcases this with rfl | rfl | rfl | rfl <;> exact hch _)
        refine ⟨st', res', h', e', hst', hc', hpos', ?_⟩
        rw [i', i2, hrev, hi1, erase_node, searchLoop_node, List.map_append, List.reverse_append, pushed_erase]

theorem drain_spec (dups : Nat → List Nat) {h : Heap} {R : Multiset Nat} : ∀ (fuel : Nat) (res : Pool Pos) (out : List Nat), PoolIn res h R →
    res.items.length < fuel → drain dups h fuel res out = .ok (out ++ (res.items.map Pos.id).reverse.flatMap fun i => dups i ++ [i])
  | 0, _, _, _, hf => absurd hf (Nat.not_lt_zero _)
  | fuel + 1, res, out, hp, hf => by
    unfold drain
    by_cases h0 : res.items.length = 0
    · rw [if_pos h0, List.length_eq_zero_iff.mp h0]
      simp
    · rw [if_neg h0]
      obtain ⟨xs, x, hx⟩ : ∃ xs x, res.items = xs ++ [x] :=
        ⟨_, _, (List.dropLast_append_getLast (List.ne_nil_of_length_pos (Nat.pos_of_ne_zero h0))).symm⟩
      obtain ⟨p1, e1, hp1, hi1⟩ := poolPop_last hp hx
      rw [e1]
      dsimp only [bind, Except.bind]
      have hlen : res.items.length = xs.length + 1 := by rw [hx]; simp
      rw [drain_spec dups fuel p1 _ hp1 (by rw [hi1]; omega), hi1, hx]
      simp

/-- Fuel that is enough for a search. -/
def need (s : MState) (q : Box) : Nat := s.root.erase.size + 1 + (searchLoop q [s.root.erase]).length + 1

theorem msearch_sim (s : MState) (q : Box) (h : Heap) (w : h.WF) (R : Multiset Nat) (hl : h.live = s.root.own + R) (fuel : Nat)
    (hf : need s q ≤ fuel) : ∃ h' a b, msearch fuel s q h = .ok (QT.search ⟨s.root.erase, s.dups⟩ q, h') ∧ h'.WF ∧
      h'.live = s.root.own + ({a} + {b} + R) := by
  unfold need at hf
  unfold msearch msearchWithin
  dsimp only [bind, Except.bind]
  obtain ⟨res, h2, hres, hres2⟩ : ∃ r g, (poolNew 64 h.alloc.2 : Pool Pos × Heap) = (r, g) ∧ r = (poolNew 64 h.alloc.2 : Pool Pos × Heap).1 :=
    ⟨_, _, rfl, rfl⟩
  have hin : PoolIn res h2 h.alloc.2.live := by
    have := poolNew_in (α := Pos) (alloc_wf w) (n := 64) (by omega)
    rw [hres] at this
    exact this
  have hitems : res.items = [] := by rw [hres2]; rfl
  rw [hres]
  dsimp only
  have hst0 : PoolIn (poolNew 16 h2 : Pool MTree × Heap).1 (poolNew 16 h2 : Pool MTree × Heap).2 h2.live := poolNew_in hin.wf (by omega)
  have hst0i : (poolNew 16 h2 : Pool MTree × Heap).1.items = [] := rfl
  obtain ⟨⟨st, h3⟩, hst⟩ : ∃ r, r = (poolNew 16 h2 : Pool MTree × Heap) := ⟨_, rfl⟩
  rw [← hst] at hst0 hst0i ⊢
  dsimp only at hst0 hst0i ⊢
  obtain ⟨st4, h4, e4, hst4, i4⟩ := poolAdd_spec hst0 s.root
  rw [e4]
  dsimp only
  rw [hst0i, List.nil_append] at i4
  obtain ⟨st5, res5, h5, e5, hst5, hc5, hpos5, i5⟩ := msearchLoop_sim q ({h.alloc.1} + h.live) fuel st4 res h4
    (by rw [i4]; simp [sizes]; omega) ⟨hst4.wf, by rw [hst4.live, hin.live, alloc_live], hst4.count, hst4.pos⟩ hin.count hin.pos
    (by
      rw [i4]
      intro t ht
      rw [List.mem_singleton.mp ht, hl]
      exact (Multiset.le_add_right _ _).trans (Multiset.le_add_left _ _))
  rw [e5]
  dsimp only
  obtain ⟨h6, e6, w6, l6⟩ := poolDestroy_spec hst5
  rw [e6]
  dsimp only [pure, Except.pure]
  have hres6 : PoolIn res5 h6 ({h.alloc.1} + h.live) := ⟨w6, l6, hc5, hpos5⟩
  rw [i4, hitems] at i5
  simp only [List.map_nil, List.nil_append, List.map_cons, List.reverse_cons, List.reverse_nil] at i5
  have hlen5 : res5.items.length = (searchLoop q [s.root.erase]).length := by rw [← i5, List.length_map]
  rw [drain_spec s.dups fuel res5 [] hres6 (by omega)]
  dsimp only
  obtain ⟨h7, e7, w7, l7⟩ := free_spec w6 (a := h.alloc.1) (R := {res5.addr} + {res5.members} + h.live) (by rw [l6]; abel)
  rw [e7]
  refine ⟨h7, res5.addr, res5.members, ?_, w7, ?_⟩
  · rw [List.nil_append, i5]; rfl
  · rw [l7, hl]; abel

/-! ### C132, C133 -/

/-- The searches made on an index, one after the other: their answers and the memory afterwards. -/
def msearches (fuel : Nat) (s : MState) : List Box → Heap → Except Fault (List (List Nat) × Heap)
  | [], h => .ok ([], h)
  | q :: qs, h => do
    let (a, h) ← msearch fuel s q h
    let (as, h) ← msearches fuel s qs h
    return (a :: as, h)

/-- The life of an index: it is built, searched for `qs` (not if building it raised) and dropped. -/
def life (cap fuel : Nat) (bb : Box) (pts : List (Option Pt)) (qs : List Box) (h : Heap) :
    Except Fault (Bool × List (List Nat) × Heap) := do
  let (raised, s, h) ← mbuild cap fuel bb pts h
  let (as, h) ← msearches fuel s (if raised then [] else qs) h
  let h ← mdealloc s h
  return (raised, as, h)

theorem msearches_sim (s : MState) (R : Multiset Nat) (fuel : Nat) : ∀ (qs : List Box) (h : Heap), h.WF → ∀ L : Multiset Nat,
    h.live = s.root.own + (L + R) → (∀ q ∈ qs, need s q ≤ fuel) →
    ∃ h' L', msearches fuel s qs h = .ok (qs.map (QT.search ⟨s.root.erase, s.dups⟩), h') ∧ h'.WF ∧
      h'.live = s.root.own + (L' + R) ∧ L'.card = L.card + 2 * qs.length
  | [], h, w, L, hl, _ => ⟨h, L, rfl, w, hl, rfl⟩
  | q :: qs, h, w, L, hl, hf => by
    obtain ⟨h1, a, b, e1, w1, l1⟩ := msearch_sim s q h w (L + R) hl fuel (hf q (by simp))
    obtain ⟨h2, L', e2, w2, l2, c2⟩ := msearches_sim s R fuel qs h1 w1 ({a} + {b} + L) (by rw [l1]; abel) (fun r hr => hf r (by simp [hr]))
    unfold msearches
    rw [e1]
    dsimp only [bind, Except.bind]
    rw [e2]
    refine ⟨h2, L', rfl, w2, l2, ?_⟩
    rw [c2, Multiset.card_add, Multiset.card_add, Multiset.card_singleton, Multiset.card_singleton, List.length_cons]
    omega

theorem le_sum_of_mem {f : Box → Nat} : ∀ {qs : List Box} {q : Box}, q ∈ qs → f q ≤ (qs.map f).sum
  | [], _, h => by simp at h
  | r :: qs, q, h => by
    rw [List.map_cons, List.sum_cons]
    rcases List.mem_cons.mp h with rfl | h
    · omega
    · have := le_sum_of_mem (f := f) h; omega

theorem life_sim {cap : Nat} (hcap : 2 ≤ cap) (bb : Box) (pts : List (Option Pt)) (hc : ∀ p ∈ upTo pts, bb.Contains p) (qs : List Box)
    (h : Heap) (w : h.WF) : ∃ N s, (∀ fuel, N ≤ fuel → buildLoop cap fuel (upTo pts) 0 ⟨.leaf bb [], fun _ => []⟩ = some s) ∧
      ∀ fuel, N ≤ fuel → ∃ h' L, life cap fuel bb pts qs h =
        .ok (decide (none ∈ pts), (if none ∈ pts then [] else qs).map (QT.search s), h') ∧ h'.live = L + h.live ∧
        L.card = 2 * (if none ∈ pts then 0 else qs.length) := by
  obtain ⟨N, hN⟩ := mbuild_sim hcap bb pts hc h w
  obtain ⟨s, _, _, eN, _⟩ := hN N le_rfl
  let M := ((qs.map fun q => s.root.size + 1 + (searchLoop q [s.root]).length + 1).sum)
  refine ⟨N + M, s, fun fuel hf => buildLoop_mono_le cap (by omega) _ _ _ _ eN, ?_⟩
  intro fuel hf
  obtain ⟨s2, ms, h1, e0, e1, er, ed, w1, l1⟩ := hN fuel (by omega)
  have hs : s2 = s := by
    have := buildLoop_mono_le cap (f := N) (f' := fuel) (by omega) _ _ _ _ eN
    rw [e0] at this
    exact Option.some.inj this
  subst hs
  have hms : (⟨ms.root.erase, ms.dups⟩ : State) = s2 := by rw [er, ed]
  obtain ⟨h2, L, e2, w2, l2, c2⟩ := msearches_sim ms h.live fuel (if (decide (none ∈ pts)) = true then [] else qs) h1 w1 0
    (by rw [l1, Multiset.zero_add]) (by
      intro q hq
      have hq' : q ∈ qs := by
        by_cases hn : decide (none ∈ pts) = true
        · rw [if_pos hn] at hq; simp at hq
        · rw [if_neg hn] at hq; exact hq
      have := le_sum_of_mem (f := fun q => s2.root.size + 1 + (searchLoop q [s2.root]).length + 1) hq'
      unfold need
      rw [er]
      have hM : M = ((qs.map fun q => s2.root.size + 1 + (searchLoop q [s2.root]).length + 1).sum) := rfl
      omega)
  obtain ⟨h3, e3, w3, l3⟩ := freeNode_spec ms.root w2 l2
  unfold life
  rw [e1]
  dsimp only [bind, Except.bind]
  rw [e2]
  dsimp only
  unfold mdealloc
  rw [e3]
  dsimp only [pure, Except.pure]
  refine ⟨h3, L, ?_, l3, ?_⟩
  · rw [hms]
    by_cases hn : none ∈ pts <;> simp [hn]
  · rw [c2, Multiset.card_zero]
    by_cases hn : none ∈ pts <;> simp [hn]

/-- C132.  Building a quadtree from any points and dropping it neither touches nor frees memory that is not live, nor writes past an
array, and in the end the live memory is what it was before: everything was freed, once.  This also holds if a coordinate that is not a
number makes building it fail. -/
theorem C132_balanced {cap : Nat} (hcap : 2 ≤ cap) (bb : Box) (pts : List (Option Pt)) (hc : ∀ p ∈ upTo pts, bb.Contains p) (h : Heap)
    (w : h.WF) : ∃ N, ∀ fuel, N ≤ fuel → ∃ h', life cap fuel bb pts [] h = .ok (decide (none ∈ pts), [], h') ∧ h'.live = h.live := by
  obtain ⟨N, s, _, hN⟩ := life_sim hcap bb pts hc [] h w
  refine ⟨N, fun fuel hf => ?_⟩
  obtain ⟨h', L, e, l, c⟩ := hN fuel hf
  refine ⟨h', ?_, ?_⟩
  · rw [e]; simp
  · have : L.card = 0 := by rw [c]; simp
    rw [l, Multiset.card_eq_zero.mp this, Multiset.zero_add]

/-- C132.  The blocks of a finished index are distinct and disjoint from all other live memory. -/
theorem C132_separate {cap : Nat} (hcap : 2 ≤ cap) (bb : Box) (pts : List (Option Pt)) (hc : ∀ p ∈ upTo pts, bb.Contains p) (h : Heap)
    (w : h.WF) : ∃ N, ∀ fuel, N ≤ fuel → ∃ b s h', mbuild cap fuel bb pts h = .ok (b, s, h') ∧ h'.live = s.root.own + h.live ∧
      s.root.own.Nodup ∧ Disjoint s.root.own h.live := by
  obtain ⟨N, hN⟩ := mbuild_sim hcap bb pts hc h w
  refine ⟨N, fun fuel hf => ?_⟩
  obtain ⟨s, ms, h', _, e, _, _, w', l'⟩ := hN fuel hf
  have := w'.nodup
  rw [l', Multiset.nodup_add] at this
  exact ⟨_, ms, h', e, l', this.1, this.2.2⟩

/-- C133.  Any number of searches in the life of an index give the answers of the model of C24 and neither touch nor free memory that is
not live, nor write past the end of a pool. -/
theorem C133_searches_partial {cap : Nat} (hcap : 2 ≤ cap) (bb : Box) (pts : List Pt) (hc : ∀ p ∈ pts, bb.Contains p) (qs : List Box)
    (h : Heap) (w : h.WF) : ∃ N s, (∀ fuel, N ≤ fuel → buildLoop cap fuel pts 0 ⟨.leaf bb [], fun _ => []⟩ = some s) ∧
      ∀ fuel, N ≤ fuel → ∃ h', life cap fuel bb (pts.map some) qs h = .ok (false, qs.map (QT.search s), h') := by
  have hu : ∀ ps : List Pt, upTo (ps.map some) = ps := by
    intro ps
    induction ps with
    | nil => rfl
    | cons p ps ih => rw [List.map_cons, upTo, ih]
  have hn : ¬ none ∈ pts.map some := by simp
  obtain ⟨N, s, hb, hN⟩ := life_sim hcap bb (pts.map some) (by rw [hu]; exact hc) qs h w
  rw [hu] at hb
  refine ⟨N, s, hb, fun fuel hf => ?_⟩
  obtain ⟨h', L, e, _, _⟩ := hN fuel hf
  refine ⟨h', ?_⟩
  rw [e, if_neg hn, decide_eq_false hn]

/-- C133, violated: every search leaves two blocks behind that nothing frees, also when the index is dropped (`search_within` does not
call `pool_destroy` on the results). -/
theorem C133_violated_leak {cap : Nat} (hcap : 2 ≤ cap) (bb : Box) (pts : List (Option Pt)) (hnan : none ∉ pts)
    (hc : ∀ p ∈ upTo pts, bb.Contains p) (qs : List Box) (h : Heap) (w : h.WF) :
    ∃ N, ∀ fuel, N ≤ fuel → ∃ as h', life cap fuel bb pts qs h = .ok (false, as, h') ∧
      h'.live.card = h.live.card + 2 * qs.length := by
  obtain ⟨N, s, _, hN⟩ := life_sim hcap bb pts hc qs h w
  refine ⟨N, fun fuel hf => ?_⟩
  obtain ⟨h', L, e, l, c⟩ := hN fuel hf
  refine ⟨(if none ∈ pts then [] else qs).map (QT.search s), h', ?_, ?_⟩
  · rw [e, decide_eq_false hnan]
  · rw [l, Multiset.card_add, c, if_neg hnan]; omega

/-- Three points, leaves of capacity two, an empty heap: the root is split twice, 32 blocks are used and freed. -/
example : (life 2 5 ⟨0, 0, 4, 4⟩ [some ⟨0, 0⟩, some ⟨1, 1⟩, some ⟨4, 4⟩] [] ⟨0, 0⟩).toOption.map
    (fun r => (r.1, r.2.1, r.2.2.next, r.2.2.live.card)) = some (false, [], 32, 0) := by
  decide +kernel

/-- With a search five more blocks are used, of which two stay. -/
example : (life 2 20 ⟨0, 0, 4, 4⟩ [some ⟨0, 0⟩, some ⟨1, 1⟩, some ⟨4, 4⟩] [⟨0, 0, 2, 2⟩] ⟨0, 0⟩).toOption.map
    (fun r => (r.1, r.2.1, r.2.2.next, r.2.2.live.card)) = some (false, [[1]], 37, 2) := by
  decide +kernel

/-- Building fails at the third point. -/
example : (life 2 20 ⟨0, 0, 4, 4⟩ [some ⟨0, 0⟩, some ⟨1, 1⟩, none] [⟨0, 0, 2, 2⟩] ⟨0, 0⟩).toOption.map
    (fun r => (r.1, r.2.1, r.2.2.live.card)) = some (true, [], 0) := by
  decide +kernel

example : (Heap.mk 0 0).WF := ⟨Multiset.nodup_zero, by simp⟩

end Karta.Mem
