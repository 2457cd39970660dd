import Verif.Vec.RTreeShape
import Mathlib.Data.List.Nodup

/-!
Properties C26, C27, C72 and C73: the spatial index of multipart geometries.
-/

namespace Karta.RTree
open Karta

/-! ### Specification -/

/-- Two boxes share an area: some point is strictly inside both. -/
def Meet (q b : RBox) : Prop :=
  ∃ x y : ℚ, (q.xmin < x ∧ x < q.xmax ∧ q.ymin < y ∧ y < q.ymax) ∧ b.xmin < x ∧ x < b.xmax ∧ b.ymin < y ∧ y < b.ymax

/-- The box `b` lies inside `q`. -/
def Inside (q b : RBox) : Prop := q.xmin ≤ b.xmin ∧ b.xmax ≤ q.xmax ∧ q.ymin ≤ b.ymin ∧ b.ymax ≤ q.ymax

/-- A box has a width and a height. -/
def Proper (b : RBox) : Prop := b.xmin < b.xmax ∧ b.ymin < b.ymax

/-- The smallest box around the boxes. -/
def IsUnion (bs : List RBox) (u : RBox) : Prop :=
  (∀ b ∈ bs, Inside u b) ∧ ∀ v, (∀ b ∈ bs, Inside v b) → Inside v u

/-- The index search ends with the result `r` (for any sufficiently large number of rounds). -/
def Returns (search : Nat → Option (List Nat)) (r : List Nat) : Prop := ∃ n, ∀ k, search (n + k) = some r

/-! ### Helpers -/

theorem overlap_iff (q b : RBox) : isOverlapping q b = true ↔ Meet q b := by
  unfold isOverlapping intersectionArea Meet
  rw [decide_eq_true_iff]
  constructor
  · intro h
    have h1 : 0 < min q.xmax b.xmax - max q.xmin b.xmin := by
      by_contra hc
      rw [max_eq_right (by linarith)] at h
      simp at h
    have h2 : 0 < min q.ymax b.ymax - max q.ymin b.ymin := by
      by_contra hc
      rw [max_eq_right (a := min q.ymax b.ymax - max q.ymin b.ymin) (by linarith)] at h
      simp at h
    have a1 := min_le_left q.xmax b.xmax
    have a2 := min_le_right q.xmax b.xmax
    have a3 := le_max_left q.xmin b.xmin
    have a4 := le_max_right q.xmin b.xmin
    have a5 := min_le_left q.ymax b.ymax
    have a6 := min_le_right q.ymax b.ymax
    have a7 := le_max_left q.ymin b.ymin
    have a8 := le_max_right q.ymin b.ymin
    refine ⟨(min q.xmax b.xmax + max q.xmin b.xmin) / 2, (min q.ymax b.ymax + max q.ymin b.ymin) / 2,
      ⟨?_, ?_, ?_, ?_⟩, ?_, ?_, ?_, ?_⟩ <;> linarith
  · rintro ⟨x, y, ⟨h1, h2, h3, h4⟩, h5, h6, h7, h8⟩
    have b1 : x < min q.xmax b.xmax := lt_min h2 h6
    have b2 : max q.xmin b.xmin < x := max_lt h1 h5
    have b3 : y < min q.ymax b.ymax := lt_min h4 h8
    have b4 : max q.ymin b.ymin < y := max_lt h3 h7
    apply mul_pos
    · exact lt_max_of_lt_left (by linarith)
    · exact lt_max_of_lt_left (by linarith)

theorem within_inside {q b : RBox} (h : isWithin q b = true) : Inside q b := by
  unfold isWithin at h
  rw [decide_eq_true_iff] at h
  exact ⟨le_of_lt h.1, h.2.1, le_of_lt h.2.2.1, h.2.2.2⟩

/-- The only node of a small index. -/
def smallTree (es : List (RBox × Nat)) (u : RBox) : Heap := [⟨true, none, [], es, u⟩]

theorem insert_small {M : Nat} {es : List (RBox × Nat)} {u b : RBox} {i : Nat} (h : es.length < M) :
    insert M (smallTree es u) 0 b i = .ok (smallTree (es ++ [(b, i)]) (u.grow b), 0) := by
  rw [insert_eq]
  have e : chooseLeaf b ((smallTree es u).length + 1) (smallTree es u) 0 = .ok 0 := by
    simp [smallTree, chooseLeaf, Heap.node]
  have e2 : addEntry (smallTree es u) 0 (b, i) = smallTree (es ++ [(b, i)]) (u.grow b) := by
    simp [smallTree, addEntry, Heap.put]
  rw [e]
  simp only [Except.bind, e2]
  have e3 : maybeSplit M (smallTree (es ++ [(b, i)]) (u.grow b)) 0 = .ok (smallTree (es ++ [(b, i)]) (u.grow b), none) := by
    unfold maybeSplit
    rw [if_neg]
    simp [smallTree, Heap.node]; omega
  rw [e3]
  simp [smallTree, adjustTree, Heap.node, Except.map, finish]

theorem buildLoop_small {M : Nat} (bs : List RBox) {es : List (RBox × Nat)} {u : RBox} {i : Nat}
    (h : es.length + bs.length ≤ M) (rest : List RBox) :
    buildLoop M (smallTree es u) 0 (bs ++ rest) i =
      buildLoop M (smallTree (es ++ bs.zipIdx i) (bs.foldl RBox.grow u)) 0 rest (i + bs.length) := by
  induction bs generalizing es u i with
  | nil => simp
  | cons b bs ih =>
    simp only [List.length_cons] at h
    rw [List.cons_append, buildLoop, insert_small (by omega)]
    simp only
    rw [ih (by simp; omega)]
    simp only [List.zipIdx_cons, List.append_assoc, List.singleton_append, List.foldl_cons, List.length_cons]
    rw [show i + 1 + bs.length = i + (bs.length + 1) by omega]

theorem build_small {M : Nat} (hM : 4 ≤ M) {bs : List RBox} (h : bs.length ≤ M) :
    build M bs = .ok (smallTree bs.zipIdx (bs.foldl RBox.grow sentinel), 0) := by
  unfold build
  rw [if_neg (by omega)]
  have := buildLoop_small (M := M) bs (es := []) (u := sentinel) (i := 0) (by simpa using h) []
  simp only [List.append_nil, List.nil_append] at this
  exact this

theorem search_small {es : List (RBox × Nat)} {u q : RBox} {test : RBox → RBox → Bool} {count : Bool} {mx : Int}
    (hm : mx ≠ 0) (k : Nat) :
    searchLoop (smallTree es u) q test count mx (1 + k) [0] [] =
      some ((es.filter fun e => test q e.1).map Prod.snd).reverse := by
  rw [show 1 + k = k + 1 by omega, searchLoop_cons, if_neg (by simp; exact fun h => hm h.symm), if_pos]
  · simp [visitFound, smallTree, Heap.node]
  · simp [visitPool, smallTree, Heap.node]

theorem mem_zipIdx_filter (bs : List RBox) (p : RBox → Bool) (i : Nat) :
    i ∈ ((bs.zipIdx.filter fun e => p e.1).map Prod.snd).reverse ↔ ∃ b, bs[i]? = some b ∧ p b = true := by
  simp only [List.mem_reverse, List.mem_map, List.mem_filter, Prod.exists]
  constructor
  · rintro ⟨b, j, ⟨h1, h2⟩, rfl⟩
    rw [List.mem_zipIdx_iff_getElem?] at h1
    exact ⟨b, h1, h2⟩
  · rintro ⟨b, h1, h2⟩
    exact ⟨b, i, ⟨by rw [List.mem_zipIdx_iff_getElem?]; exact h1, h2⟩, rfl⟩

theorem nodup_zipIdx_filter (bs : List RBox) (p : RBox → Bool) :
    ((bs.zipIdx.filter fun e => p e.1).map Prod.snd).reverse.Nodup := by
  rw [List.nodup_reverse]
  refine List.Nodup.sublist (l₂ := bs.zipIdx.map Prod.snd) (List.Sublist.map _ List.filter_sublist) ?_
  rw [List.zipIdx_map_snd]
  exact List.nodup_range'

/-! ### C26 -/

/-- C26, soundness: whatever the history, every index returned by an overlap search belongs to a geometry
whose bounding box shares an area with the query.

Missing for the full claim: completeness, which fails (below) once a node has been divided. -/
theorem C26_sound_partial {M : Nat} {boxes : List RBox} {t : Heap × Nat} (h : build M boxes = .ok t) {q : RBox}
    {mx : Int} {r : List Nat} (hr : Returns (fun n => searchOverlapping n t q mx) r) :
    ∀ i ∈ r, ∃ b, boxes[i]? = some b ∧ Meet q b := by
  obtain ⟨n, hn⟩ := hr
  refine search_sound (build_ents h) (fun i => ∃ b, boxes[i]? = some b ∧ Meet q b) (by simp) ?_ (hn 0)
  intro e he ht
  exact ⟨e.1, he, (overlap_iff _ _).1 ht⟩

/-- C26 for an index whose geometries fit in one node: the search returns exactly the geometries whose
bounding boxes share an area with the query, each once. -/
theorem C26_small_partial {M : Nat} (hM : 4 ≤ M) {boxes : List RBox} (hn : boxes.length ≤ M) :
    ∃ t, build M boxes = .ok t ∧ ∀ (q : RBox) (mx : Int), mx ≠ 0 →
      ∃ r : List Nat, Returns (fun n => searchOverlapping n t q mx) r ∧ r.Nodup ∧
        ∀ i, i ∈ r ↔ ∃ b, boxes[i]? = some b ∧ Meet q b := by
  refine ⟨_, build_small hM hn, fun q mx hm => ?_⟩
  refine ⟨_, ⟨1, fun k => search_small hm k⟩, nodup_zipIdx_filter _ _, fun i => ?_⟩
  rw [mem_zipIdx_filter]
  simp only [overlap_iff]

example : ∃ boxes : List RBox, boxes.length ≤ 4 ∧ ∃ b, boxes[1]? = some b ∧ Meet ⟨0, 0, 2, 2⟩ b :=
  ⟨[⟨5, 5, 6, 6⟩, ⟨1, 1, 3, 3⟩], by decide, ⟨1, 1, 3, 3⟩, rfl, 3 / 2, 3 / 2, by norm_num, by norm_num⟩

theorem seeds_nested {es : List (RBox × Nat)} {e0 : RBox × Nat} (hp : Proper e0.1)
    (hn : ∀ e ∈ es, Inside e.1 e0.1) : seeds Prod.fst (e0 :: es) = (0, 0) := by
  have axis : ∀ (lo hi : RBox → ℚ) (l : List RBox) (k : Nat), (∀ b ∈ l, lo b ≤ lo e0.1 ∧ hi e0.1 ≤ hi b) →
      pickAxis lo hi l k (0, e0.1) (0, e0.1) = (0, 0) := by
    intro lo hi l
    induction l with
    | nil => intro k _; rfl
    | cons b l ih =>
      intro k hb
      have h1 := hb b (by simp)
      rw [pickAxis, if_neg (not_lt.2 h1.1), if_neg (not_lt.2 h1.2)]
      exact ih (k + 1) fun b' hb' => hb b' (List.mem_cons_of_mem _ hb')
  have hx := axis RBox.xmin RBox.xmax (es.map Prod.fst) 1 (by
    intro b hb
    obtain ⟨e, he, rfl⟩ := List.mem_map.1 hb
    exact ⟨(hn e he).1, (hn e he).2.1⟩)
  have hy := axis RBox.ymin RBox.ymax (es.map Prod.fst) 1 (by
    intro b hb
    obtain ⟨e, he, rfl⟩ := List.mem_map.1 hb
    exact ⟨(hn e he).2.2.1, (hn e he).2.2.2⟩)
  have grow : ∀ (l : List RBox) (u : RBox), Proper u → Proper (l.foldl RBox.grow u) := by
    intro l
    induction l with
    | nil => intro u hu; exact hu
    | cons b l ih =>
      intro u hu
      refine ih _ ⟨?_, ?_⟩
      · exact lt_of_le_of_lt (min_le_left _ _) (lt_of_lt_of_le hu.1 (le_max_left _ _))
      · exact lt_of_le_of_lt (min_le_left _ _) (lt_of_lt_of_le hu.2 (le_max_left _ _))
  have hu := grow (es.map Prod.fst) e0.1 hp
  unfold seeds pickSeeds
  simp only [List.map_cons]
  rw [hx, hy, if_neg (by
    rintro (h | h)
    · exact absurd h (ne_of_gt hu.1)
    · exact absurd h (ne_of_gt hu.2))]
  simp

/-- When both seeds are the first item, the last one is discarded. -/
theorem split_nested {es : List (RBox × Nat)} {e0 z : RBox × Nat} (hp : Proper e0.1)
    (hn : ∀ e ∈ es ++ [z], Inside e.1 e0.1) {A B : Side (RBox × Nat)}
    (h : splitItems Prod.fst (e0 :: (es ++ [z])) = .ok (A, B)) :
    (∀ e ∈ A.1, e ∈ e0 :: es) ∧ ∀ e ∈ B.1, e ∈ e0 :: es := by
  have hs := seeds_nested hp hn
  unfold splitItems at h
  rw [hs] at h
  simp only [List.getElem?_cons_zero] at h
  have hr : removeSeeds (e0 :: (es ++ [z])) 0 0 = poolPop (z :: es) 0 := by
    unfold removeSeeds
    simp only [gt_iff_lt, lt_self_iff_false, if_false]
    have : poolPop (e0 :: (es ++ [z])) 0 = .ok (z :: es) := by
      unfold poolPop
      rw [if_neg (by simp), ← List.cons_append, List.getLast?_append]
      simp only [List.getLast?_singleton, Option.some_or]
      rw [List.cons_append, List.set_cons_zero]
      congr 1
      rw [← List.cons_append, List.dropLast_concat]
    rw [this]
  rw [hr] at h
  obtain ⟨x, r, hx, e, hl, hperm⟩ := poolPop_ok (l := z :: es) (i := 0) (by simp)
  rw [e] at h
  simp only [Except.ok.injEq] at h
  have hxz : z = x := by simpa using hx
  rw [← hxz] at hperm
  have hr : r.Perm es := hperm.cons_inv
  have hall : ∀ y ∈ (distribute Prod.fst r.reverse ([e0], e0.1) ([e0], e0.1)).1.1 ++
      (distribute Prod.fst r.reverse ([e0], e0.1) ([e0], e0.1)).2.1, y ∈ e0 :: es := by
    intro y hy
    have := (distribute_perm Prod.fst _ _ _).subset hy
    simp only [List.cons_append, List.nil_append, List.mem_cons, List.mem_reverse] at this
    rcases this with h1 | h1 | h1
    · rw [h1]; simp
    · rw [h1]; simp
    · exact List.mem_cons_of_mem _ (hr.subset h1)
  rw [h] at hall
  exact ⟨fun e he => hall e (List.mem_append_left _ he), fun e he => hall e (List.mem_append_right _ he)⟩

/-- The shape of a one-node index. -/
theorem shape_small (es : List (RBox × Nat)) (u : RBox) : Shape (smallTree es u) 0 none (fun _ => 0) 0 := by
  constructor <;> simp [Heap.node, smallTree]

/-- C26 is violated: a geometry is dropped from the index.  If the bounding box of the first geometry lies
inside the bounding boxes of the next `M` ones (`M` being the node capacity, 50 by default) - for example
because they are all equal - then the geometry with index `M` is returned by no search, whatever the query
and however many geometries follow. -/
theorem C26_violated_lost_geometry {M : Nat} (hM : 4 ≤ M) {b0 z : RBox} {bs rest : List RBox}
    (hlen : bs.length + 1 = M) (hp : Proper b0) (hn : ∀ b ∈ bs ++ [z], Inside b b0) :
    (b0 :: bs ++ z :: rest)[M]? = some z ∧
    ∃ t, build M (b0 :: bs ++ z :: rest) = .ok t ∧
      ∀ (q : RBox) (mx : Int) (r : List Nat), Returns (fun n => searchOverlapping n t q mx) r → M ∉ r := by
  constructor
  · rw [List.getElem?_append_right (by simp; omega)]
    simp [← hlen]
  obtain ⟨h', r', lvl', L', e, S⟩ := build_ok hM (b0 :: bs ++ z :: rest)
  refine ⟨(h', r'), e, ?_⟩
  have hE : Ents (fun e => e.2 ≠ M) h' := by
    unfold build at e
    rw [if_neg (by omega)] at e
    have := buildLoop_small (M := M) (b0 :: bs) (es := []) (u := sentinel) (i := 0) (by simp; omega) (z :: rest)
    simp only [List.nil_append, Nat.zero_add, List.length_cons] at this
    rw [hlen] at this
    have e' := this.symm.trans e
    rw [buildLoop] at e'
    cases hi : insert M (smallTree ((b0 :: bs).zipIdx) ((b0 :: bs).foldl RBox.grow sentinel)) 0 z M with
    | error x => rw [hi] at e'; cases e'
    | ok t1 =>
      obtain ⟨h1, r1⟩ := t1
      rw [hi] at e'
      refine Ents.buildLoop (t := (h', r')) ?_ ?_ e'
      · -- the division of the root
        rw [insert_eq] at hi
        set es := (b0 :: bs).zipIdx with hes
        set u := (b0 :: bs).foldl RBox.grow sentinel with hu
        have c : chooseLeaf z ((smallTree es u).length + 1) (smallTree es u) 0 = .ok 0 := by
          simp [smallTree, chooseLeaf, Heap.node]
        have c2 : addEntry (smallTree es u) 0 (z, M) = smallTree (es ++ [(z, M)]) (u.grow z) := by
          simp [smallTree, addEntry, Heap.put]
        rw [c] at hi
        simp only [Except.bind, c2] at hi
        cases hm : maybeSplit M (smallTree (es ++ [(z, M)]) (u.grow z)) 0 with
        | error x => rw [hm] at hi; cases hi
        | ok p =>
          rw [hm] at hi
          simp only at hi
          have Ep : Ents (fun e => e.2 ≠ M) p.1 := by
            unfold maybeSplit at hm
            rw [if_pos (by simp [smallTree, Heap.node, hes]; omega)] at hm
            cases hs : splitLeaf M (smallTree (es ++ [(z, M)]) (u.grow z)) 0 with
            | error x => rw [hs] at hm; cases hm
            | ok p' =>
              rw [hs] at hm
              cases hm
              refine splitLeaf_ents (h' := p'.1) (s := p'.2) ?_ ?_ hs
              · intro b hb e he
                match b with
                | 0 => exact absurd rfl hb
                | b + 1 => simp [smallTree, Heap.node] at he
              · intro A B hAB
                have hnode : ((smallTree (es ++ [(z, M)]) (u.grow z)).node 0).ents =
                    (b0, 0) :: (bs.zipIdx 1 ++ [(z, M)]) := by
                  simp [smallTree, Heap.node, hes, List.zipIdx_cons]
                rw [hnode] at hAB
                have hin : ∀ e ∈ bs.zipIdx 1 ++ [(z, M)], Inside e.1 (b0, (0 : Nat)).1 := by
                  intro e he
                  apply hn
                  rcases List.mem_append.1 he with he | he
                  · have := List.fst_mem_of_mem_zipIdx he
                    exact List.mem_append_left _ this
                  · rw [List.mem_singleton] at he; subst he; simp
                obtain ⟨mA, mB⟩ := split_nested (e0 := (b0, 0)) (z := (z, M)) hp hin hAB
                have lt : ∀ e ∈ (b0, (0 : Nat)) :: bs.zipIdx 1, e.2 ≠ M := by
                  intro e he
                  rcases List.mem_cons.1 he with rfl | he
                  · simp; omega
                  · have := List.snd_lt_of_mem_zipIdx he
                    omega
                exact ⟨fun e he => lt e (mA e he), fun e he => lt e (mB e he)⟩
          cases ha : adjustTree M (p.1.length + 1) p.1 0 p.2 with
          | error x => rw [ha] at hi; cases hi
          | ok r =>
            obtain ⟨h3, r3, s3⟩ := r
            rw [ha] at hi
            simp only [Except.map, Except.ok.injEq] at hi
            have := (Ep.adjustTree ha).finish r3 s3
            rw [hi] at this
            exact this
      · intro k b hk
        simp only
        omega
  rintro q mx r ⟨n, hr⟩ hmem
  exact search_sound hE (fun i => i ≠ M) (by simp) (fun e he _ => he) (hr 0) M hmem rfl

/-- The hypotheses are met by 51 copies of a unit square, with the default capacity of 50. -/
example : (List.replicate 49 (⟨0, 0, 1, 1⟩ : RBox)).length + 1 = 50 ∧ Proper ⟨0, 0, 1, 1⟩ ∧
    ∀ b ∈ List.replicate 49 (⟨0, 0, 1, 1⟩ : RBox) ++ [⟨0, 0, 1, 1⟩], Inside b ⟨0, 0, 1, 1⟩ := by
  refine ⟨by simp, by constructor <;> norm_num, ?_⟩
  intro b hb
  rw [List.mem_append, List.mem_replicate, List.mem_singleton] at hb
  have : b = ⟨0, 0, 1, 1⟩ := by tauto
  subst this
  exact ⟨by norm_num, by norm_num, by norm_num, by norm_num⟩

/-- Fifty adjoining unit squares and a distant one. -/
def row : List RBox :=
  (List.range 51).map fun (i : Nat) => if i = 50 then ⟨1000, 0, 1001, 1⟩ else ⟨i, 0, i + 1, 1⟩

/-- C26 is violated: with the default capacity, fifty unit squares in a row followed by a distant one are
indexed in such a way that a search with the box of the fiftieth square finds nothing. -/
theorem C26_violated_stale_box : ∃ t, build 50 row = .ok t ∧ row[49]? = some ⟨49, 0, 50, 1⟩ ∧
    Meet ⟨49, 0, 50, 1⟩ ⟨49, 0, 50, 1⟩ ∧ Returns (fun n => searchOverlapping n t ⟨49, 0, 50, 1⟩ (-1)) [] := by
  obtain ⟨h', r', lvl', L', e, S⟩ := build_ok (M := 50) (by omega) row
  refine ⟨(h', r'), e, by decide +kernel, ⟨99 / 2, 1 / 2, by norm_num, by norm_num⟩, 10, fun k => ?_⟩
  have key : ((build 50 row).toOption.bind fun t => searchOverlapping 10 t ⟨49, 0, 50, 1⟩ (-1)) = some [] := by
    decide +kernel
  rw [e] at key
  exact search_mono key k

/-- C26 is violated for flat geometries: one whose bounding box has no width or no height (such as a
horizontal or vertical line) is never found, even by a query with room on all sides of it. -/
theorem C26_violated_flat {M : Nat} {boxes : List RBox} {t : Heap × Nat} (h : build M boxes = .ok t) {i : Nat}
    {b : RBox} (hi : boxes[i]? = some b) (hb : b.xmin = b.xmax ∨ b.ymin = b.ymax) {q : RBox} {mx : Int}
    {r : List Nat} (hr : Returns (fun n => searchOverlapping n t q mx) r) : i ∉ r := by
  intro hmem
  obtain ⟨b', hb', x, y, -, h1, h2, h3, h4⟩ := C26_sound_partial h hr i hmem
  rw [hi] at hb'
  cases hb'
  rcases hb with hb | hb <;> linarith

example : ∃ t, build 4 [⟨0, 0, 1, 0⟩] = .ok t ∧ Inside ⟨-1, -1, 2, 2⟩ ⟨0, 0, 1, 0⟩ := by
  refine ⟨_, build_small (by omega) (by simp), ?_⟩
  exact ⟨by norm_num, by norm_num, by norm_num, by norm_num⟩

/-! ### C27 -/

/-- C27, soundness: whatever the history, the query and the limit, every geometry returned by a
containment search has its bounding box inside the query box.

Missing for the full claim: the limit on the number of results, which is not kept (below). -/
theorem C27_within_sound_partial {M : Nat} {boxes : List RBox} {t : Heap × Nat} (h : build M boxes = .ok t) {q : RBox}
    {mx : Int} {r : List Nat} (hr : Returns (fun n => searchWithin n t q mx) r) :
    ∀ i ∈ r, ∃ b, boxes[i]? = some b ∧ Inside q b := by
  obtain ⟨n, hn⟩ := hr
  refine search_sound (build_ents h) (fun i => ∃ b, boxes[i]? = some b ∧ Inside q b) (by simp) ?_ (hn 0)
  intro e he ht
  exact ⟨e.1, he, within_inside ht⟩

/-- C27 for an index whose geometries fit in one node: the search returns, each once, the geometries inside
the query box that do not share its left or lower side. -/
theorem C27_small_partial {M : Nat} (hM : 4 ≤ M) {boxes : List RBox} (hn : boxes.length ≤ M) :
    ∃ t, build M boxes = .ok t ∧ ∀ (q : RBox) (mx : Int), mx ≠ 0 →
      ∃ r : List Nat, Returns (fun n => searchWithin n t q mx) r ∧ r.Nodup ∧
        ∀ i, i ∈ r ↔ ∃ b, boxes[i]? = some b ∧ Inside q b ∧ q.xmin ≠ b.xmin ∧ q.ymin ≠ b.ymin := by
  refine ⟨_, build_small hM hn, fun q mx hm => ?_⟩
  refine ⟨_, ⟨1, fun k => search_small hm k⟩, nodup_zipIdx_filter _ _, fun i => ?_⟩
  rw [mem_zipIdx_filter]
  have : ∀ b : RBox, isWithin q b = true ↔ Inside q b ∧ q.xmin ≠ b.xmin ∧ q.ymin ≠ b.ymin := by
    intro b
    unfold isWithin Inside
    rw [decide_eq_true_iff]
    constructor
    · rintro ⟨h1, h2, h3, h4⟩
      exact ⟨⟨le_of_lt h1, h2, le_of_lt h3, h4⟩, ne_of_lt h1, ne_of_lt h3⟩
    · rintro ⟨⟨h1, h2, h3, h4⟩, h5, h6⟩
      exact ⟨lt_of_le_of_ne h1 h5, h2, lt_of_le_of_ne h3 h6, h4⟩
  simp only [this]

/-- C27 is violated: the limit on the number of results is not kept.  If all geometries fit in one node,
any limit other than 0 has no effect at all, for containment as well as for overlap searches; here three
geometries are returned although at most one was asked for. -/
theorem C27_violated_limit :
    (∃ (boxes : List RBox) (t : Heap × Nat) (q : RBox) (r : List Nat), build 50 boxes = .ok t ∧
      Returns (fun n => searchWithin n t q 1) r ∧ r.length = 3) ∧
    ∃ (boxes : List RBox) (t : Heap × Nat) (q : RBox) (r : List Nat), build 50 boxes = .ok t ∧
      Returns (fun n => searchOverlapping n t q 1) r ∧ r.length = 3 := by
  refine ⟨⟨List.replicate 3 ⟨0, 0, 1, 1⟩, _, ⟨-1, -1, 1, 1⟩, _, build_small (by omega) (by simp),
      ⟨1, fun k => search_small (by omega) k⟩, by decide +kernel⟩,
    ⟨List.replicate 3 ⟨0, 0, 1, 1⟩, _, ⟨-1, -1, 1, 1⟩, _, build_small (by omega) (by simp),
      ⟨1, fun k => search_small (by omega) k⟩, by decide +kernel⟩⟩

/-! ### C72 -/

theorem grow_inside (bs : List RBox) (u : RBox) : Inside (bs.foldl RBox.grow u) u ∧ ∀ b ∈ bs, Inside (bs.foldl RBox.grow u) b := by
  have tr : ∀ {a b c : RBox}, Inside a b → Inside b c → Inside a c := fun h1 h2 =>
    ⟨h1.1.trans h2.1, h2.2.1.trans h1.2.1, h1.2.2.1.trans h2.2.2.1, h2.2.2.2.trans h1.2.2.2⟩
  have g1 : ∀ a b : RBox, Inside (a.grow b) a := fun a b =>
    ⟨min_le_left _ _, le_max_left _ _, min_le_left _ _, le_max_left _ _⟩
  have g2 : ∀ a b : RBox, Inside (a.grow b) b := fun a b =>
    ⟨min_le_right _ _, le_max_right _ _, min_le_right _ _, le_max_right _ _⟩
  induction bs generalizing u with
  | nil => exact ⟨⟨le_refl _, le_refl _, le_refl _, le_refl _⟩, by simp⟩
  | cons b bs ih =>
    obtain ⟨h1, h2⟩ := ih (u.grow b)
    refine ⟨tr h1 (g1 u b), fun c hc => ?_⟩
    rcases List.mem_cons.1 hc with rfl | hc
    · exact tr h1 (g2 u c)
    · exact h2 c hc

/-- C72 for an index whose geometries fit in one node: `RTree.bbox` is the smallest box around them.
Coordinates are assumed to be smaller than `1e38`, the initial value of node boxes.

Missing for the full claim: larger indices, for which it fails (below). -/
theorem C72_bbox_small_partial {M : Nat} (hM : 4 ≤ M) {boxes : List RBox} (hn : boxes.length ≤ M) (hne : boxes ≠ [])
    (hsmall : ∀ b ∈ boxes, Inside ⟨-10 ^ 38, -10 ^ 38, 10 ^ 38, 10 ^ 38⟩ b ∧ b.xmin ≤ b.xmax ∧ b.ymin ≤ b.ymax) :
    ∃ t, build M boxes = .ok t ∧ IsUnion boxes (treeBox t) := by
  refine ⟨_, build_small hM hn, ?_⟩
  have : treeBox (smallTree boxes.zipIdx (boxes.foldl RBox.grow sentinel), 0) = boxes.foldl RBox.grow sentinel := rfl
  rw [this]
  refine ⟨(grow_inside boxes sentinel).2, fun v hv => ?_⟩
  have gen : ∀ (l : List RBox) (u : RBox), (∀ b ∈ l, Inside v b) → Inside v u → Inside v (l.foldl RBox.grow u) := by
    intro l
    induction l with
    | nil => intro u _ hu; exact hu
    | cons b l ih =>
      intro u hl hu
      refine ih _ (fun c hc => hl c (List.mem_cons_of_mem _ hc)) ?_
      have hb := hl b (by simp)
      exact ⟨le_min hu.1 hb.1, max_le hu.2.1 hb.2.1, le_min hu.2.2.1 hb.2.2.1, max_le hu.2.2.2 hb.2.2.2⟩
  cases boxes with
  | nil => exact absurd rfl hne
  | cons b l =>
    obtain ⟨hs, hx, hy⟩ := hsmall b (by simp)
    obtain ⟨s1, s2, s3, s4⟩ := hs
    rw [List.foldl_cons]
    refine gen l _ (fun c hc => hv c (List.mem_cons_of_mem _ hc)) ?_
    have hb := hv b (by simp)
    simp only at s1 s2 s3 s4
    have e : sentinel.grow b = b := by
      unfold RBox.grow sentinel
      cases b
      simp only [RBox.mk.injEq] at *
      exact ⟨min_eq_right (by linarith), min_eq_right (by linarith), max_eq_right (by linarith), max_eq_right (by linarith)⟩
    rw [e]
    exact hb

example : ∃ t, build 50 [⟨0, 0, 1, 1⟩, ⟨2, 3, 4, 5⟩] = .ok t ∧ treeBox t = ⟨0, 0, 4, 5⟩ :=
  ⟨_, build_small (by omega) (by simp), by decide +kernel⟩

/-- C72 is violated: whenever the number of geometries exceeds the node capacity by one, `RTree.bbox` is the
inverted placeholder `(1e38, 1e38, -1e38, -1e38)`, whatever the geometries. -/
theorem C72_violated_after_division {M : Nat} (hM : 4 ≤ M) {boxes : List RBox} (hn : boxes.length = M + 1) :
    ∃ t, build M boxes = .ok t ∧ treeBox t = ⟨10 ^ 38, 10 ^ 38, -10 ^ 38, -10 ^ 38⟩ := by
  obtain ⟨bs, z, rfl⟩ : ∃ bs z, boxes = bs ++ [z] := by
    have : boxes ≠ [] := by intro h; rw [h] at hn; simp at hn
    exact ⟨boxes.dropLast, boxes.getLast this, (List.dropLast_append_getLast this).symm⟩
  have hl : bs.length = M := by simpa using hn
  have e := buildLoop_small (M := M) bs (es := []) (u := sentinel) (i := 0) (by simp; omega) [z]
  simp only [List.nil_append, Nat.zero_add] at e
  rw [hl] at e
  set es := bs.zipIdx with hes
  set u := bs.foldl RBox.grow sentinel with hu
  have c : chooseLeaf z ((smallTree es u).length + 1) (smallTree es u) 0 = .ok 0 := by
    simp [smallTree, chooseLeaf, Heap.node]
  have c2 : addEntry (smallTree es u) 0 (z, M) = smallTree (es ++ [(z, M)]) (u.grow z) := by
    simp [smallTree, addEntry, Heap.put]
  have S := shape_small (es ++ [(z, M)]) (u.grow z)
  have hents : ((smallTree (es ++ [(z, M)]) (u.grow z)).node 0).ents.length = M + 1 := by
    simp [smallTree, Heap.node, hes, hl]
  obtain ⟨h2, e2, l2, S2⟩ := splitLeaf_ok (M := M) S (a := 0) (by simp [smallTree]) rfl (by rw [hents]; omega)
  have hpar : (h2.node 0).parent = none := by
    cases hp : (h2.node 0).parent with
    | none => rfl
    | some p =>
      obtain ⟨p1, p2⟩ := S2.par 0 (by omega) p hp
      have := S2.le p p1
      omega
  refine ⟨finish h2 0 (some (smallTree (es ++ [(z, M)]) (u.grow z)).length), ?_, ?_⟩
  · unfold build
    rw [if_neg (by omega)]
    refine e.trans ?_
    rw [buildLoop, insert_eq, c]
    simp only [Except.bind, c2]
    unfold maybeSplit
    rw [if_pos (by omega), e2]
    simp only
    rw [adjustTree, hpar]
    rfl
  · unfold treeBox finish
    simp only
    have s0 : (smallTree (es ++ [(z, M)]) (u.grow z)).length = 1 := rfl
    rw [s0] at l2 ⊢
    unfold addKid
    rw [node_put, node_put, node_put, node_put, node_append]
    simp only [if_true]
    split_ifs <;> rfl

example : (List.replicate 51 (⟨0, 0, 1, 1⟩ : RBox)).length = 50 + 1 := by simp

/-! ### C73 -/

/-- C73: building an index of any list of geometries succeeds (with a capacity of at least 4), and every
search ends, with a result that does not depend on how long one waits. -/
theorem C73_total {M : Nat} (hM : 4 ≤ M) (boxes : List RBox) :
    ∃ t, build M boxes = .ok t ∧ ∀ (q : RBox) (mx : Int),
      (∃ r, Returns (fun n => searchOverlapping n t q mx) r) ∧ ∃ r, Returns (fun n => searchWithin n t q mx) r := by
  obtain ⟨h', r', lvl', L', e, S⟩ := build_ok hM boxes
  refine ⟨(h', r'), e, fun q mx => ⟨?_, ?_⟩⟩
  · obtain ⟨n, r, hr⟩ := search_terminates q isOverlapping false mx S S.root_lt []
    exact ⟨r, n, fun k => search_mono hr k⟩
  · obtain ⟨n, r, hr⟩ := search_terminates q isWithin true mx S S.root_lt []
    exact ⟨r, n, fun k => search_mono hr k⟩

/-- C73: the capacity limit is real - a smaller one ends the process. -/
theorem C73_capacity (M : Nat) (boxes : List RBox) : (∃ t, build M boxes = .ok t) ↔ 4 ≤ M := by
  constructor
  · rintro ⟨t, h⟩
    unfold build at h
    by_contra hc
    rw [if_pos (by omega)] at h
    cases h
  · intro h
    obtain ⟨t, e, -⟩ := C73_total h boxes
    exact ⟨t, e⟩

end Karta.RTree
