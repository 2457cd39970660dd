import Verif.Mem.RTreeMem
import Verif.Mem.HeapProps
import Verif.Vec.RTreeProps

/-!
C134: memory over the life of an R-tree.  C135: memory used by its searches.
-/

namespace Karta.Mem

open Karta.RTree (RBox RNode sentinel build build_small)

/-! ### C134 -/

theorem freeBlk_mem {b c : Blk} {live live' : Multiset Blk} (h : freeBlk b live = .ok live') (hc : c ≠ b) (hm : c ∈ live) : c ∈ live' := by
  unfold freeBlk at h
  by_cases hb : b ∈ live
  · rw [if_pos hb] at h
    cases h
    exact (Multiset.mem_erase_of_ne hc).mpr hm
  · rw [if_neg hb] at h; cases h

theorem freeBlks_mem {c : Blk} : ∀ {bs : List Blk} {live live' : Multiset Blk}, freeBlks bs live = .ok live' → c ∉ bs → c ∈ live → c ∈ live'
  | [], _, _, h, _, hm => by cases h; exact hm
  | b :: bs, live, live', h, hc, hm => by
    unfold freeBlks at h
    cases e : freeBlk b live with
    | error f => rw [e] at h; cases h
    | ok l1 =>
      rw [e] at h
      simp only [List.mem_cons, not_or] at hc
      exact freeBlks_mem h hc.2 (freeBlk_mem e hc.1 hm)

theorem eachDo_inv {α β : Type _} {P : β → Prop} {f : α → β → Except Fault β} (hf : ∀ x s s', P s → f x s = .ok s' → P s') :
    ∀ {xs : List α} {s s' : β}, P s → eachDo f xs s = .ok s' → P s'
  | [], _, _, hp, h => by cases h; exact hp
  | x :: xs, s, s', hp, h => by
    unfold eachDo at h
    cases e : f x s with
    | error f => rw [e] at h; cases h
    | ok s1 => rw [e] at h; exact eachDo_inv hf (hf x s s1 hp e) h

theorem rtFree_kids (h : RTree.Heap) (c : Nat) : ∀ (fuel a : Nat) (live live' : Multiset Blk), rtFree h fuel a live = .ok live' →
    Blk.kids c ∈ live → Blk.kids c ∈ live'
  | 0, _, _, _, e, _ => by cases e
  | fuel + 1, a, live, live', e, hm => by
    unfold rtFree at e
    by_cases hl : (h.node a).leaf = true
    · rw [if_pos hl] at e
      exact freeBlks_mem e (by simp) hm
    · rw [if_neg hl] at e
      exact eachDo_inv (P := fun s => Blk.kids c ∈ s) (fun x s s' hp hs => rtFree_kids h c fuel x s s' hs hp) hm e

/-- Only leaves give their struct back. -/
theorem rtFree_node (h : RTree.Heap) (c : Nat) (hc : (h.node c).leaf = false) : ∀ (fuel a : Nat) (live live' : Multiset Blk),
    rtFree h fuel a live = .ok live' → ∀ b ∈ nodeBlks c, b ∈ live → b ∈ live'
  | 0, _, _, _, e, _, _, _ => by cases e
  | fuel + 1, a, live, live', e, b, hb, hm => by
    unfold rtFree at e
    by_cases hl : (h.node a).leaf = true
    · rw [if_pos hl] at e
      refine freeBlks_mem e ?_ hm
      have hac : a ≠ c := by rintro rfl; rw [hc] at hl; cases hl
      simp only [nodeBlks, List.mem_cons, List.not_mem_nil, or_false] at hb
      rcases hb with rfl | rfl | rfl | rfl <;> simp [Ne.symm hac]
    · rw [if_neg hl] at e
      exact eachDo_inv (P := fun s => b ∈ s) (fun x s s' hp hs => rtFree_node h c hc fuel x s s' hs b hb hp) hm e

theorem mem_treeBlks {h : RTree.Heap} {n a : Nat} (ha : a < h.length) {b : Blk} (hb : b ∈ nodeBlks a) : b ∈ treeBlks h n := by
  unfold treeBlks
  rw [List.mem_append]
  exact Or.inl (List.mem_flatMap.mpr ⟨a, List.mem_range.mpr ha, hb⟩)

/-- The geometries that `__init__` reaches. -/
theorem reached {geoms : List RBox} : ((geoms.map some).takeWhile Option.isSome) = geoms.map some := by
  induction geoms with
  | nil => rfl
  | cons g gs ih => rw [List.map_cons, List.takeWhile_cons_of_pos rfl, ih]

theorem reduce_map_some (l : List RBox) : (l.map some).reduceOption = l := by
  induction l with
  | nil => rfl
  | cons b l ih => rw [List.map_cons]; simpa [List.reduceOption] using ih

/-- C134, violated: dropping an R-tree never frees the arrays of children, of which it has at least one, and of nodes that are not leaves
it frees nothing. -/
theorem C134_violated_leak {M : Nat} {boxes : List RBox} {h : RTree.Heap} {root fuel : Nat} {raised : Bool} {live : Multiset Blk}
    (hb : build M boxes = .ok (h, root)) (e : rtLife M fuel (boxes.map some) = .ok (raised, live)) :
    (∀ a, a < h.length → Blk.kids a ∈ live) ∧
    (∀ a, a < h.length → (h.node a).leaf = false → ∀ b ∈ [Blk.node a, .kids a, .idx a, .bb a], b ∈ live) := by
  unfold rtLife at e
  rw [reached, reduce_map_some, hb] at e
  dsimp only at e
  rw [if_neg (by simp)] at e
  cases ef : rtFree h fuel root (treeBlks h (boxes.map some).length) with
  | error f => rw [ef] at e; cases e
  | ok l =>
    rw [ef] at e
    cases e
    refine ⟨fun a ha => ?_, fun a ha hl b hm => ?_⟩
    · exact rtFree_kids h a fuel root _ _ ef (Multiset.mem_coe.mpr (mem_treeBlks ha (by simp [nodeBlks])))
    · exact rtFree_node h a hl fuel root _ _ ef b hm (Multiset.mem_coe.mpr (mem_treeBlks ha hm))

/-- C134, violated: if building the index fails because a geometry has no bounding box, nothing that was allocated is freed. -/
theorem C134_violated_failed_build {M fuel : Nat} {geoms : List (Option RBox)} (hn : none ∈ geoms) {raised : Bool} {live : Multiset Blk}
    (e : rtLife M fuel geoms = .ok (raised, live)) : raised = true ∧ ∃ h root,
      build M (geoms.takeWhile Option.isSome).reduceOption = .ok (h, root) ∧ live = treeBlks h (geoms.takeWhile Option.isSome).length := by
  unfold rtLife at e
  cases hb : build M (geoms.takeWhile Option.isSome).reduceOption with
  | error f => rw [hb] at e; cases e
  | ok t =>
    obtain ⟨h, root⟩ := t
    rw [hb] at e
    dsimp only at e
    rw [if_pos hn] at e
    cases e
    exact ⟨rfl, h, root, rfl, rfl⟩

/-- C134, violated: with 51 geometries of the same bounding box and the default capacity, the box of the first geometry is freed twice. -/
theorem C134_violated_double_free : rtLife 50 3 (List.replicate 51 (some ⟨0, 0, 1, 1⟩)) = .error .badFree := by
  have key : (match rtLife 50 3 (List.replicate 51 (some ⟨0, 0, 1, 1⟩)) with | .error .badFree => true | _ => false) = true := by
    decide +kernel
  cases e : rtLife 50 3 (List.replicate 51 (some ⟨0, 0, 1, 1⟩)) with
  | ok r => rw [e] at key; cases key
  | error f => rw [e] at key; cases f <;> first | rfl | cases key

theorem freeBlks_spec : ∀ (bs : List Blk) (R : Multiset Blk), freeBlks bs ((bs : Multiset Blk) + R) = .ok R
  | [], R => by rw [freeBlks, Multiset.coe_nil, Multiset.zero_add]
  | b :: bs, R => by
    have hm : b ∈ ((b :: bs : List Blk) : Multiset Blk) + R := by simp
    unfold freeBlks freeBlk
    rw [if_pos hm, ← Multiset.cons_coe, Multiset.cons_add, Multiset.erase_cons_head]
    exact freeBlks_spec bs R

/-- C134 for an index whose geometries fit in one node: dropping it frees every block once, except the array of children. -/
theorem C134_small_partial {M : Nat} (hM : 4 ≤ M) {boxes : List RBox} (hn : boxes.length ≤ M) (fuel : Nat) :
    rtLife M (fuel + 1) (boxes.map some) = .ok (false, {Blk.kids 0}) := by
  unfold rtLife
  rw [reached, reduce_map_some, build_small hM hn]
  dsimp only
  rw [if_neg (by simp)]
  have hT : ((treeBlks (RTree.smallTree boxes.zipIdx (boxes.foldl RBox.grow sentinel)) (boxes.map some).length : List Blk) : Multiset Blk) =
      ((boxes.zipIdx.map (fun e => Blk.geom e.2) ++ [.idx 0, .bb 0, .node 0] : List Blk) : Multiset Blk) + {Blk.kids 0} := by
    have hz : boxes.zipIdx.map (fun e => Blk.geom e.2) = (List.range boxes.length).map Blk.geom := by
      rw [List.range_eq_range', ← List.zipIdx_map_snd, List.map_map]; rfl
    unfold treeBlks RTree.smallTree
    rw [hz, List.length_map]
    rw [← Multiset.coe_add, ← Multiset.coe_add]
    have h1 : (((List.range [(⟨true, none, [], boxes.zipIdx, boxes.foldl RBox.grow sentinel⟩ : RNode)].length).flatMap nodeBlks : List Blk) :
        Multiset Blk) = (([.idx 0, .bb 0, .node 0] : List Blk) : Multiset Blk) + {Blk.kids 0} := by
      show (((List.range 1).flatMap nodeBlks : List Blk) : Multiset Blk) = _
      decide
    rw [h1]
    abel
  have hF : rtFree (RTree.smallTree boxes.zipIdx (boxes.foldl RBox.grow sentinel)) (fuel + 1) 0
      (treeBlks (RTree.smallTree boxes.zipIdx (boxes.foldl RBox.grow sentinel)) (boxes.map some).length) = .ok {Blk.kids 0} := by
    unfold rtFree
    rw [if_pos (by rfl), hT]
    exact freeBlks_spec _ _
  rw [hF]
  rfl

example : rtLife 4 1 ([⟨0, 0, 1, 1⟩, ⟨2, 2, 3, 3⟩].map some) = .ok (false, {Blk.kids 0}) :=
  C134_small_partial (by omega) (by decide) 0

/-- A tree with two levels can be dropped, which leaves six blocks. -/
example : (rtLife 4 5 ([⟨0, 0, 1, 1⟩, ⟨2, 2, 3, 3⟩, ⟨4, 4, 5, 5⟩, ⟨6, 6, 7, 7⟩, ⟨8, 8, 9, 9⟩].map some)).toOption.map
    (fun r => (r.1, r.2.card)) = some (false, 6) := by
  decide +kernel

/-! ### C135 -/

open Karta.RTree (searchLoop visitFound visitPool searchLoop_cons)

theorem filter_true {α : Type _} (l : List α) : l.filter (fun _ => true) = l := List.filter_true l

theorem rloop_sim (h : RTree.Heap) (q : RBox) (test : RBox → RBox → Bool) (count : Bool) (max : Int) (R : Multiset Nat) :
    ∀ (fuel : Nat) (np ip : Pool Nat) (g : Heap) (r : List Nat),
    searchLoop h q test count max fuel np.items.reverse ip.items.reverse = some r →
    PoolIn np g ({ip.addr} + {ip.members} + R) → ip.items.length ≤ ip.size → 0 < ip.size →
    ∃ np' ip' g', rloop h q test count max fuel np ip g = .ok (np', ip', g') ∧ PoolIn np' g' ({ip'.addr} + {ip'.members} + R) ∧
      ip'.items.length ≤ ip'.size ∧ 0 < ip'.size ∧ ip'.items.reverse = r
  | 0, _, _, _, _, e, _, _, _ => by cases e
  | fuel + 1, np, ip, g, r, e, hnp, hc, hpos => by
    unfold rloop
    by_cases hmax : ((if count then ip.items.length else 0 : Nat) : Int) = max
    · rw [if_pos hmax]
      have e' : some ip.items.reverse = some r := by
        rw [← e]
        unfold searchLoop
        rw [List.length_reverse, if_pos hmax]
      exact ⟨np, ip, g, rfl, hnp, hc, hpos, Option.some.inj e'⟩
    · rw [if_neg hmax]
      rcases List.eq_nil_or_concat np.items with h0 | ⟨xs, x, hx⟩
      · exfalso
        rw [h0] at e
        unfold searchLoop at e
        rw [List.length_reverse, if_neg hmax] at e
        cases e
      · rw [List.concat_eq_append] at hx
        have hrev : np.items.reverse = x :: xs.reverse := by rw [hx]; simp
        rw [hrev, searchLoop_cons, List.length_reverse, if_neg hmax] at e
        obtain ⟨np1, e1, hnp1, hi1⟩ := poolPop_last hnp hx
        rw [e1]
        dsimp only [bind, Except.bind]
        by_cases hl : (h.node x).leaf = true
        · rw [if_pos hl]
          have hip : PoolIn ip g ({np1.addr} + {np1.members} + R) := ⟨hnp1.wf, by rw [hnp1.live]; abel, hc, hpos⟩
          obtain ⟨ip2, g2, e2, hip2, hi2⟩ := addWhere_spec (fun _ => true) _ (((h.node x).ents.filter fun e => test q e.1).map Prod.snd) ip g hip
          rw [e2]
          dsimp only
          have hnp2 : PoolIn np1 g2 ({ip2.addr} + {ip2.members} + R) := ⟨hip2.wf, by rw [hip2.live]; abel, hnp1.count, hnp1.pos⟩
          have hf : visitFound h q test x ip.items.reverse = ip2.items.reverse := by
            unfold visitFound
            rw [if_pos hl, hi2, filter_true, List.reverse_append]
          have hp : visitPool h q x xs.reverse = np1.items.reverse := by
            unfold visitPool
            rw [if_pos hl, hi1]
          rw [hf, hp] at e
          by_cases hnil : np1.items = []
          · rw [if_pos hnil]
            rw [if_pos (by rw [hnil]; rfl)] at e
            exact ⟨np1, ip2, g2, rfl, hnp2, hip2.count, hip2.pos, Option.some.inj e⟩
          · rw [if_neg hnil]
            rw [if_neg (by simpa using hnil)] at e
            exact rloop_sim h q test count max R fuel np1 ip2 g2 r e hnp2 hip2.count hip2.pos
        · rw [if_neg hl]
          obtain ⟨np2, g2, e2, hnp2, hi2⟩ := addWhere_spec (fun k => RTree.isOverlapping q (h.node k).bbox) _ (h.node x).kids np1 g hnp1
          rw [e2]
          dsimp only
          have hf : visitFound h q test x ip.items.reverse = ip.items.reverse := by
            unfold visitFound
            rw [if_neg hl]
          have hp : visitPool h q x xs.reverse = np2.items.reverse := by
            unfold visitPool
            rw [if_neg hl, hi2, hi1, List.reverse_append]
          rw [hf, hp] at e
          by_cases hnil : np2.items = []
          · rw [if_pos hnil]
            rw [if_pos (by rw [hnil]; rfl)] at e
            exact ⟨np2, ip, g2, rfl, hnp2, hc, hpos, Option.some.inj e⟩
          · rw [if_neg hnil]
            rw [if_neg (by simpa using hnil)] at e
            exact rloop_sim h q test count max R fuel np2 ip g2 r e hnp2 hc hpos

theorem rdrain_spec {g : Heap} {R : Multiset Nat} : ∀ (fuel : Nat) (p : Pool Nat) (out : List Nat), PoolIn p g R → p.items.length < fuel →
    ∃ p', rdrain g fuel p out = .ok (out ++ p.items.reverse, p') ∧ PoolIn p' g R
  | 0, _, _, _, hf => absurd hf (Nat.not_lt_zero _)
  | fuel + 1, p, out, hp, hf => by
    unfold rdrain
    by_cases h0 : p.items.length = 0
    · rw [if_pos h0, List.length_eq_zero_iff.mp h0]
      exact ⟨p, by simp, hp⟩
    · rw [if_neg h0]
      obtain ⟨xs, x, hx⟩ : ∃ xs x, p.items = xs ++ [x] :=
        ⟨_, _, (List.dropLast_append_getLast (List.ne_nil_of_length_pos (Nat.pos_of_ne_zero h0))).symm⟩
      obtain ⟨p1, e1, hp1, hi1⟩ := poolPop_last hp hx
      rw [e1]
      dsimp only [bind, Except.bind]
      have hlen : p.items.length = xs.length + 1 := by rw [hx]; simp
      obtain ⟨p2, e2, hp2⟩ := rdrain_spec fuel p1 (out ++ [x]) hp1 (by rw [hi1]; omega)
      refine ⟨p2, ?_, hp2⟩
      rw [e2, hi1, hx]
      simp

theorem rsearch_sim (t : RTree.Heap × Nat) (q : RBox) (test : RBox → RBox → Bool) (count : Bool) (max : Int) (g : Heap) (w : g.WF)
    (fuel : Nat) (r : List Nat) (e : searchLoop t.1 q test count max fuel [t.2] [] = some r) (hf : r.length < fuel) :
    ∃ g' b, rsearch fuel t q test count max g = .ok (r, g') ∧ g'.WF ∧ g'.live = {b} + g.live := by
  unfold rsearch
  dsimp only [bind, Except.bind]
  have hin : PoolIn (poolNew 16 g.alloc.2 : Pool Nat × Heap).1 (poolNew 16 g.alloc.2 : Pool Nat × Heap).2 g.alloc.2.live :=
    poolNew_in (alloc_wf w) (by omega)
  have hini : (poolNew 16 g.alloc.2 : Pool Nat × Heap).1.items = [] := rfl
  obtain ⟨⟨ip, g1⟩, h1⟩ : ∃ v, v = (poolNew 16 g.alloc.2 : Pool Nat × Heap) := ⟨_, rfl⟩
  rw [← h1] at hin hini ⊢
  dsimp only at hin hini ⊢
  have hnp : PoolIn (poolNew 16 g1 : Pool Nat × Heap).1 (poolNew 16 g1 : Pool Nat × Heap).2 g1.live := poolNew_in hin.wf (by omega)
  have hnpi : (poolNew 16 g1 : Pool Nat × Heap).1.items = [] := rfl
  obtain ⟨⟨np, g2⟩, h2⟩ : ∃ v, v = (poolNew 16 g1 : Pool Nat × Heap) := ⟨_, rfl⟩
  rw [← h2] at hnp hnpi ⊢
  dsimp only at hnp hnpi ⊢
  obtain ⟨np3, g3, e3, hnp3, i3⟩ := poolAdd_spec hnp t.2
  rw [e3]
  dsimp only
  rw [hnpi, List.nil_append] at i3
  obtain ⟨np4, ip4, g4, e4, hnp4, hc4, hpos4, i4⟩ := rloop_sim t.1 q test count max ({g.alloc.1} + g.live) fuel np3 ip g3 r
    (by rw [i3, hini]; exact e) ⟨hnp3.wf, by rw [hnp3.live, hin.live, alloc_live], hnp3.count, hnp3.pos⟩ hin.count hin.pos
  rw [e4]
  dsimp only
  obtain ⟨g5, e5, w5, l5⟩ := poolDestroy_spec hnp4
  rw [e5]
  dsimp only
  have hip5 : PoolIn ip4 g5 ({g.alloc.1} + g.live) := ⟨w5, l5, hc4, hpos4⟩
  obtain ⟨ip6, e6, hip6⟩ := rdrain_spec fuel ip4 [] hip5 (by rw [← List.length_reverse, i4]; exact hf)
  rw [e6]
  dsimp only
  obtain ⟨g7, e7, w7, l7⟩ := poolDestroy_spec hip6
  rw [e7]
  refine ⟨g7, g.alloc.1, ?_, w7, l7⟩
  rw [List.nil_append, i4]
  rfl

/-- C135.  A search of an R-tree that returns (in the model of C26 and C27) returns the same answer in the model with memory: its pools are
neither overrun nor used after they were freed, and they are freed once. -/
theorem C135_search_partial (t : RTree.Heap × Nat) (q : RBox) (max : Int) (g : Heap) (w : g.WF) (r : List Nat) :
    (RTree.Returns (fun n => RTree.searchWithin n t q max) r →
      ∃ N, ∀ fuel, N ≤ fuel → ∃ g', rsearch fuel t q RTree.isWithin true max g = .ok (r, g')) ∧
    (RTree.Returns (fun n => RTree.searchOverlapping n t q max) r →
      ∃ N, ∀ fuel, N ≤ fuel → ∃ g', rsearch fuel t q RTree.isOverlapping false max g = .ok (r, g')) := by
  constructor
  all_goals
    rintro ⟨n, hn⟩
    refine ⟨n + r.length + 1, fun fuel hf => ?_⟩
    obtain ⟨k, rfl⟩ := Nat.exists_eq_add_of_le (show n ≤ fuel by omega)
    obtain ⟨g', b, e, _⟩ := rsearch_sim t q _ _ max g w (n + k) r (hn k) (by omega)
    exact ⟨g', e⟩

/-- C135, violated: every search leaves the box of its query behind. -/
theorem C135_violated_leak (t : RTree.Heap × Nat) (q : RBox) (test : RBox → RBox → Bool) (count : Bool) (max : Int) (g : Heap) (w : g.WF)
    (r : List Nat) (hr : RTree.Returns (fun n => searchLoop t.1 q test count max n [t.2] []) r) :
    ∃ N, ∀ fuel, N ≤ fuel → ∃ g', rsearch fuel t q test count max g = .ok (r, g') ∧ g'.live.card = g.live.card + 1 := by
  obtain ⟨n, hn⟩ := hr
  refine ⟨n + r.length + 1, fun fuel hf => ?_⟩
  obtain ⟨k, rfl⟩ := Nat.exists_eq_add_of_le (show n ≤ fuel by omega)
  obtain ⟨g', b, e, _, l⟩ := rsearch_sim t q test count max g w (n + k) r (hn k) (by omega)
  exact ⟨g', e, by rw [l, Multiset.card_add, Multiset.card_singleton]; omega⟩

end Karta.Mem
