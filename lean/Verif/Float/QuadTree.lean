import Verif.Float.Units
import Verif.Vec.QuadTreeProps

/-!
Model of the quadtree (`/repo/karta/vector/quadtree.h`, `/repo/karta/vector/quadtree.pyx`) with rounded arithmetic.  Only the
midpoints of boxes are computed; everything else compares and copies coordinates, so that the search is the one of
`Verif.Vec.QuadTree`.  `qt_split` calls itself without any bound, so the model carries explicit fuel and returns `none` when it runs
out.  A leaf that has been divided is freed: where `qt_split` stores its result somewhere else than in the place of the leaf (`slotF`),
the program goes on with a pointer to the freed leaf.  The model keeps the old leaf there, which is what the program sees as long as the
memory is not used again.
-/

namespace Karta.Float.QT
open Karta Karta.Vec Karta.Vec.QT Karta.Float

variable (R : Rounding)

/-- `0.5*(a + b)` (quadtree.h 184-185, 352-353). -/
def midF (a b : ℚ) : ℚ := R.fl (1 / 2 * R.fl (a + b))

/-- Midpoint of a box (quadtree.h 184-185, 352-353). -/
def midPt (b : Box) : Pt := ⟨midF R b.xmin b.xmax, midF R b.ymin b.ymax⟩

/-- `get_quadrant` (quadtree.h 351-367). -/
def quadrantF (b : Box) (p : Pt) : Quad :=
  if p.x < (midPt R b).x then
    if p.y < (midPt R b).y then .ll else .ul
  else
    if p.y < (midPt R b).y then .lr else .ur

/-- Boxes of the four new leaves (quadtree.h 188-191). -/
def quadBoxF (b : Box) : Quad → Box
  | .ul => ⟨b.xmin, (midPt R b).y, (midPt R b).x, b.ymax⟩
  | .ur => ⟨(midPt R b).x, (midPt R b).y, b.xmax, b.ymax⟩
  | .ll => ⟨b.xmin, b.ymin, (midPt R b).x, (midPt R b).y⟩
  | .lr => ⟨(midPt R b).x, b.ymin, b.xmax, (midPt R b).y⟩

/-- `qt_split` (quadtree.h 182-275) of a leaf with box `bb` and positions `ps`; `cap` is `max_positions`.  The recursive call also
stores its result in this node at the quadrant of the child's midpoint (212-226). -/
def splitF (cap : Nat) : Nat → Box → List Pos → Option Tree
  | 0, _, _ => none
  | fuel + 1, bb, ps =>
    let part := fun q => ps.filter fun p => quadrantF R bb p.pt = q
    let ch := fun q => QT.Tree.leaf (quadBoxF R bb q) (part q)
    let again := fun q =>
      match splitF cap fuel (quadBoxF R bb q) (part q) with
      | none => none
      | some s => some (.node bb (setChild (setChild ch (quadrantF R bb (midPt R (quadBoxF R bb q))) s) q s))
    if cap ≤ (part .ul).length then again .ul
    else if cap ≤ (part .ur).length then again .ur
    else if cap ≤ (part .ll).length then again .ll
    else if cap ≤ (part .lr).length then again .lr
    else some (.node bb ch)

/-- Where the result of inserting into child `q` of a node with box `bb` is stored: a split leaf is stored by the quadrant of its
midpoint (quadtree.h 212-226), anything else in place. -/
def slotF (bb : Box) (q : Quad) : Tree → Tree → Quad
  | .leaf lb _, .node _ _ => quadrantF R bb (midPt R lb)
  | _, _ => q

/-- `qt_insert` (quadtree.h 95-179): `(duplicate id, tree after the call)`. -/
def insertF (cap fuel : Nat) : Tree → Pos → Option (Option Nat × Tree)
  | .leaf bb ps, p =>
    match duplicate p ps with
    | some i => some (some i, .leaf bb ps)
    | none =>
      if cap ≤ (ps ++ [p]).length then
        match splitF R cap fuel bb (ps ++ [p]) with
        | none => none
        | some t => some (none, t)
      else some (none, .leaf bb (ps ++ [p]))
  | .node bb ch, p =>
    let q := quadrantF R bb p.pt
    match insertF cap fuel (ch q) p with
    | none => none
    | some (d, t) => some (d, .node bb (setChild ch (slotF R bb q (ch q) t) t))

/-- Loop of `QuadTree.__cinit__` (quadtree.pyx 81-97). -/
def buildLoopF (cap fuel : Nat) : List Pt → Nat → State → Option State
  | [], _, s => some s
  | p :: ps, i, s =>
    match insertF R cap fuel s.root ⟨i, p⟩ with
    | none => none
    | some (some k, _) => buildLoopF cap fuel ps (i + 1) ⟨s.root, addDup s.dups k i⟩
    | some (none, t) => buildLoopF cap fuel ps (i + 1) ⟨t, s.dups⟩

/-- `QuadTree(points, leaf_capacity)` (quadtree.pyx 61-101); the capacity is 50 unless given. -/
def buildF (cap fuel : Nat) (pts : List Pt) : Option State :=
  buildLoopF R cap fuel pts 0 ⟨.leaf ((bbox pts).getD ⟨0, 0, 0, 0⟩) [], fun _ => []⟩

/-- `Point.distance` of points in the same projected system (geometry.py 300-303); `sq` is `math.sqrt`. -/
def distF (sq : ℚ → ℚ) (c p : Pt) : ℚ :=
  sq (R.fl (R.fl (R.fl (p.x - c.x) * R.fl (p.x - c.x)) + R.fl (R.fl (p.y - c.y) * R.fl (p.y - c.y))))

/-- Indices kept by `Multipoint.within_radius` with a spatial index (geometry.py 1364-1373). -/
def withinRadiusIndexedF (sq : ℚ → ℚ) (s : State) (pts : List Pt) (c : Pt) (r : ℚ) : List Nat :=
  sortInts ((search s ⟨R.fl (c.x - r), R.fl (c.y - r), R.fl (c.x + r), R.fl (c.y + r)⟩).filter fun i =>
    testAt pts i fun p => decide (distF R sq c p < r))

/-- Indices kept by `Multipoint.within_radius` without one (geometry.py 1374-1376, 571-574). -/
def withinRadiusPlainF (sq : ℚ → ℚ) (pts : List Pt) (c : Pt) (r : ℚ) : List Nat :=
  (List.range pts.length).filter fun i => testAt pts i fun p => decide (distF R sq c p < r)

/-! ### Trees whose boxes can be divided -/

/-- The result of dividing a child goes to the place of this child. -/
def SplitOK (S : Pt → Prop) (bb : Box) : Prop :=
  ∀ p, S p → bb.Contains p → quadrantF R bb (midPt R (quadBoxF R bb (quadrantF R bb p))) = quadrantF R bb p

/-- A property of boxes at a depth that lets them be divided as long as they hold two of the points `S`, and not more than `N` times. -/
def Divides (N : Nat) (S : Pt → Prop) (P : Nat → Box → Prop) : Prop :=
  ∀ s bb a b, P s bb → S a → S b → a ≠ b → bb.Contains a → bb.Contains b →
    s < N ∧ SplitOK R S bb ∧ ∀ q, P (s + 1) (quadBoxF R bb q)

/-- Tree invariant for a node responsible for the box `bb` at depth `s`. -/
def InvF (S : Pt → Prop) (P : Nat → Box → Prop) (cap : Nat) : Tree → Box → Nat → Prop
  | .leaf b ps, bb, s => b = bb ∧ P s bb ∧ (∀ p ∈ ps, S p.pt ∧ bb.Contains p.pt) ∧ ps.length < cap ∧
      ps.Pairwise fun p q => p.pt ≠ q.pt
  | .node b ch, bb, s => b = bb ∧ SplitOK R S bb ∧ ∀ q, InvF S P cap (ch q) (quadBoxF R bb q) (s + 1) ∧
      ∀ p ∈ (ch q).pts, quadrantF R bb p.pt = q ∧ bb.Contains p.pt

variable {R} {S : Pt → Prop} {P : Nat → Box → Prop} {N : Nat} {cap : Nat}

theorem InvF.contains {t : Tree} {bb : Box} {s : Nat} (h : InvF R S P cap t bb s) : ∀ p ∈ t.pts, bb.Contains p.pt := by
  cases t with
  | leaf b ps => exact fun p hp => (h.2.2.1 p hp).2
  | node b ch =>
    intro p hp
    obtain ⟨q, hq⟩ := mem_node.1 hp
    exact ((h.2.2 q).2 p hq).2

theorem InvF.bb_eq {t : Tree} {bb : Box} {s : Nat} (h : InvF R S P cap t bb s) : t.bb = bb := by
  cases t with
  | leaf b ps => exact h.1
  | node b ch => exact h.1

theorem quadBoxF_contains {bb : Box} {p : Pt} (h : bb.Contains p) : (quadBoxF R bb (quadrantF R bb p)).Contains p := by
  obtain ⟨h1, h2, h3, h4⟩ := h
  unfold quadrantF
  by_cases hx : p.x < (midPt R bb).x <;> by_cases hy : p.y < (midPt R bb).y <;>
    simp only [hx, hy, if_true, if_false, quadBoxF, Box.Contains] <;>
    refine ⟨?_, ?_, ?_, ?_⟩ <;> linarith

theorem partsF_perm (bb : Box) (ps : List Pos) :
    (ps.filter fun p => quadrantF R bb p.pt = .lr) ++ (ps.filter fun p => quadrantF R bb p.pt = .ll) ++
      (ps.filter fun p => quadrantF R bb p.pt = .ur) ++ (ps.filter fun p => quadrantF R bb p.pt = .ul)
      |>.Perm ps := by
  rw [List.perm_iff_count]
  intro a
  simp only [List.count_append]
  by_cases ha : a ∈ ps
  · have hc : ∀ q, List.count a (ps.filter fun p => decide (quadrantF R bb p.pt = q))
        = if quadrantF R bb a.pt = q then List.count a ps else 0 := by
      intro q
      split
      · rename_i h
        exact List.count_filter (by simpa using h)
      · rename_i h
        apply List.count_eq_zero_of_not_mem
        simp [h]
    simp only [hc]
    cases quadrantF R bb a.pt <;> simp
  · have hc : ∀ q, List.count a (ps.filter fun p => decide (quadrantF R bb p.pt = q)) = 0 := by
      intro q
      apply List.count_eq_zero_of_not_mem
      simp [ha]
    simp only [hc]
    rw [List.count_eq_zero_of_not_mem ha]

theorem nodeF_pts_perm (bb : Box) (ch : Quad → Tree) (ps : List Pos)
    (h : ∀ q, (ch q).pts.Perm (ps.filter fun p => quadrantF R bb p.pt = q)) :
    (QT.Tree.node bb ch).pts.Perm ps :=
  ((((h .lr).append (h .ll)).append (h .ur)).append (h .ul)).trans (partsF_perm bb ps)

/-- Two different points among at least two. -/
theorem two_points {ps : List Pos} (hl : 2 ≤ ps.length) (hd : ps.Pairwise fun p q => p.pt ≠ q.pt) :
    ∃ a ∈ ps, ∃ b ∈ ps, a.pt ≠ b.pt := by
  match ps, hl with
  | a :: b :: rest, _ => exact ⟨a, by simp, b, by simp, (List.pairwise_cons.1 hd).1 b (by simp)⟩

theorem divide (hP : Divides R N S P) {s : Nat} {bb : Box} {ps : List Pos} (hb : P s bb) (hl : 2 ≤ ps.length)
    (hc : ∀ p ∈ ps, S p.pt ∧ bb.Contains p.pt) (hd : ps.Pairwise fun p q => p.pt ≠ q.pt) :
    s < N ∧ SplitOK R S bb ∧ ∀ q, P (s + 1) (quadBoxF R bb q) := by
  obtain ⟨a, ha, b, hb', hne⟩ := two_points hl hd
  exact hP s bb a.pt b.pt hb (hc a ha).1 (hc b hb').1 hne (hc a ha).2 (hc b hb').2

theorem splitF_spec (hP : Divides R N S P) (hcap : 2 ≤ cap) (fuel : Nat) (bb : Box) (s : Nat) (ps : List Pos) (t : Tree)
    (h : splitF R cap fuel bb ps = some t) (hl : ps.length = cap) (hb : P s bb)
    (hc : ∀ p ∈ ps, S p.pt ∧ bb.Contains p.pt) (hd : ps.Pairwise fun p q => p.pt ≠ q.pt) :
    InvF R S P cap t bb s ∧ t.pts.Perm ps ∧ ∃ ch, t = .node bb ch := by
  induction fuel generalizing bb ps t s with
  | zero => simp [splitF] at h
  | succ fuel ih =>
    obtain ⟨_, hok, hch⟩ := divide hP hb (by omega) hc hd
    have hagain : ∀ q, cap ≤ (ps.filter fun p => quadrantF R bb p.pt = q).length →
        (match splitF R cap fuel (quadBoxF R bb q) (ps.filter fun p => quadrantF R bb p.pt = q) with
          | none => none
          | some s => some (QT.Tree.node bb (setChild (setChild
              (fun q => QT.Tree.leaf (quadBoxF R bb q) (ps.filter fun p => quadrantF R bb p.pt = q))
              (quadrantF R bb (midPt R (quadBoxF R bb q))) s) q s))) = some t →
        InvF R S P cap t bb s ∧ t.pts.Perm ps ∧ ∃ ch, t = .node bb ch := by
      intro q hq e
      have hall : ∀ p ∈ ps, quadrantF R bb p.pt = q := by
        have : (ps.filter fun p => quadrantF R bb p.pt = q).length = ps.length := by
          have := List.length_filter_le (fun p : Pos => decide (quadrantF R bb p.pt = q)) ps
          omega
        simpa using (List.length_filter_eq_length_iff.1 this)
      have hself : (ps.filter fun p => quadrantF R bb p.pt = q) = ps := by
        rw [List.filter_eq_self]; simpa using hall
      obtain ⟨p0, hp0⟩ : ∃ p, p ∈ ps := by
        cases ps with
        | nil => simp at hl; omega
        | cons p _ => exact ⟨p, by simp⟩
      have hmid : quadrantF R bb (midPt R (quadBoxF R bb q)) = q := by
        have := hok p0.pt (hc p0 hp0).1 (hc p0 hp0).2
        rwa [hall p0 hp0] at this
      rw [hself, hmid] at e
      cases hs : splitF R cap fuel (quadBoxF R bb q) ps with
      | none => rw [hs] at e; simp at e
      | some s' =>
        rw [hs] at e
        simp only [Option.some.injEq] at e
        obtain ⟨i1, i2, _⟩ := ih (quadBoxF R bb q) (s + 1) ps s' hs hl (hch q)
          (fun p hp => ⟨(hc p hp).1, by have := quadBoxF_contains (R := R) (hc p hp).2; rwa [hall p hp] at this⟩) hd
        subst e
        have hch' : ∀ q', (setChild (setChild (fun q => QT.Tree.leaf (quadBoxF R bb q)
            (ps.filter fun p => quadrantF R bb p.pt = q)) q s') q s' q')
            = if q' = q then s' else QT.Tree.leaf (quadBoxF R bb q')
              (ps.filter fun p => quadrantF R bb p.pt = q') := by
          intro q'
          unfold setChild
          split <;> simp_all
        have hempty : ∀ q', q' ≠ q → (ps.filter fun p => quadrantF R bb p.pt = q') = [] := by
          intro q' hne
          rw [List.filter_eq_nil_iff]
          intro p hp
          simp [hall p hp, Ne.symm hne]
        refine ⟨⟨rfl, hok, fun q' => ?_⟩, ?_, ⟨_, rfl⟩⟩
        · rw [hch']
          by_cases hq' : q' = q
          · rw [if_pos hq', hq']
            refine ⟨i1, fun p hp => ?_⟩
            have := i2.mem_iff.1 hp
            exact ⟨hall p this, (hc p this).2⟩
          · rw [if_neg hq', hempty q' hq']
            refine ⟨⟨rfl, hch q', by simp, by simp; omega, by simp⟩, by simp [QT.Tree.pts]⟩
        · apply nodeF_pts_perm (R := R)
          intro q'
          rw [hch']
          by_cases hq' : q' = q
          · rw [if_pos hq', hq', hself]; exact i2
          · rw [if_neg hq']; exact List.Perm.refl _
    simp only [splitF] at h
    split at h
    · exact hagain _ (by assumption) h
    · split at h
      · exact hagain _ (by assumption) h
      · split at h
        · exact hagain _ (by assumption) h
        · split at h
          · exact hagain _ (by assumption) h
          · rename_i h1 h2 h3 h4
            simp only [Option.some.injEq] at h
            subst h
            refine ⟨⟨rfl, hok, fun q => ⟨⟨rfl, hch q, ?_, ?_, ?_⟩, ?_⟩⟩, ?_, ⟨_, rfl⟩⟩
            · intro p hp
              obtain ⟨hp1, hp2⟩ := List.mem_filter.1 hp
              have := quadBoxF_contains (R := R) (hc p hp1).2
              rw [of_decide_eq_true hp2] at this
              exact ⟨(hc p hp1).1, this⟩
            · cases q <;> omega
            · exact hd.sublist List.filter_sublist
            · intro p hp
              obtain ⟨hp1, hp2⟩ := List.mem_filter.1 hp
              exact ⟨of_decide_eq_true hp2, (hc p hp1).2⟩
            · apply nodeF_pts_perm (R := R)
              intro q; exact List.Perm.refl _

theorem splitF_ends (hP : Divides R N S P) (hcap : 2 ≤ cap) (fuel : Nat) (bb : Box) (s : Nat) (ps : List Pos)
    (hl : ps.length = cap) (hb : P s bb) (hf : N ≤ s + fuel)
    (hc : ∀ p ∈ ps, S p.pt ∧ bb.Contains p.pt) (hd : ps.Pairwise fun p q => p.pt ≠ q.pt) :
    ∃ t, splitF R cap fuel bb ps = some t := by
  induction fuel generalizing bb s with
  | zero =>
    obtain ⟨h, _⟩ := divide hP hb (by omega) hc hd
    omega
  | succ n ih =>
    obtain ⟨_, hok, hch⟩ := divide hP hb (by omega) hc hd
    have key : ∀ q, cap ≤ (ps.filter fun p => quadrantF R bb p.pt = q).length →
        ∃ s, splitF R cap n (quadBoxF R bb q) (ps.filter fun p => quadrantF R bb p.pt = q) = some s := by
      intro q hq
      have hlen : (ps.filter fun p => quadrantF R bb p.pt = q).length = ps.length := by
        have := List.length_filter_le (fun p : Pos => decide (quadrantF R bb p.pt = q)) ps
        omega
      have hall : ∀ p ∈ ps, quadrantF R bb p.pt = q := by
        simpa using (List.length_filter_eq_length_iff.1 hlen)
      have hself : (ps.filter fun p => quadrantF R bb p.pt = q) = ps := by
        rw [List.filter_eq_self]; simpa using hall
      rw [hself]
      apply ih _ (s + 1) (hch q) (by omega)
      intro p hp
      have := quadBoxF_contains (R := R) (hc p hp).2
      rw [hall p hp] at this
      exact ⟨(hc p hp).1, this⟩
    rw [splitF]
    simp only []
    split
    · rename_i h; obtain ⟨s, e⟩ := key _ h; rw [e]; exact ⟨_, rfl⟩
    · split
      · rename_i h; obtain ⟨s, e⟩ := key _ h; rw [e]; exact ⟨_, rfl⟩
      · split
        · rename_i h; obtain ⟨s, e⟩ := key _ h; rw [e]; exact ⟨_, rfl⟩
        · split
          · rename_i h; obtain ⟨s, e⟩ := key _ h; rw [e]; exact ⟨_, rfl⟩
          · exact ⟨_, rfl⟩

theorem insertF_spec (hP : Divides R N S P) (hcap : 2 ≤ cap) (fuel : Nat) (t : Tree) (bb : Box) (s : Nat) (p : Pos)
    (hi : InvF R S P cap t bb s) (hS : S p.pt) (hp : bb.Contains p.pt) (d : Option Nat) (t' : Tree)
    (h : insertF R cap fuel t p = some (d, t')) :
    (∀ i, d = some i → ∃ r ∈ t.pts, r.id = i ∧ r.pt = p.pt) ∧
    (d = none → InvF R S P cap t' bb s ∧ t'.pts.Perm (p :: t.pts) ∧ ∀ r ∈ t.pts, r.pt ≠ p.pt) := by
  induction t generalizing bb d t' s with
  | leaf b ps =>
    obtain ⟨rfl, hb, hc, hl, hd⟩ := hi
    simp only [insertF] at h
    cases hdup : duplicate p ps with
    | some i =>
      rw [hdup] at h
      simp only [Option.some.injEq, Prod.mk.injEq] at h
      obtain ⟨rfl, rfl⟩ := h
      refine ⟨?_, by simp⟩
      rintro j ⟨⟩
      exact duplicate_some hdup
    | none =>
      have hne := duplicate_none hdup
      rw [hdup] at h
      simp only [] at h
      have hpw : (ps ++ [p]).Pairwise fun p q => p.pt ≠ q.pt := by
        rw [List.pairwise_append]
        refine ⟨hd, by simp, ?_⟩
        intro a ha c hc'
        rw [List.mem_singleton.1 hc']
        exact hne a ha
      have hcc : ∀ r ∈ ps ++ [p], S r.pt ∧ b.Contains r.pt := by
        intro r hr
        rcases List.mem_append.1 hr with hr | hr
        · exact hc r hr
        · rw [List.mem_singleton.1 hr]; exact ⟨hS, hp⟩
      have hperm : (ps ++ [p]).Perm (p :: ps) := List.perm_append_singleton p ps
      by_cases hful : cap ≤ (ps ++ [p]).length
      · rw [if_pos hful] at h
        cases hs : splitF R cap fuel b (ps ++ [p]) with
        | none => rw [hs] at h; simp at h
        | some s' =>
          rw [hs] at h
          simp only [Option.some.injEq, Prod.mk.injEq] at h
          obtain ⟨rfl, rfl⟩ := h
          obtain ⟨i1, i2, _⟩ := splitF_spec hP hcap fuel b s (ps ++ [p]) s' hs
            (by simp at hful ⊢; omega) hb hcc hpw
          exact ⟨by simp, fun _ => ⟨i1, i2.trans hperm, hne⟩⟩
      · rw [if_neg hful] at h
        simp only [Option.some.injEq, Prod.mk.injEq] at h
        obtain ⟨rfl, rfl⟩ := h
        exact ⟨by simp, fun _ => ⟨⟨rfl, hb, hcc, by omega, hpw⟩, hperm, hne⟩⟩
  | node b ch ih =>
    obtain ⟨rfl, hok, hq⟩ := hi
    simp only [insertF] at h
    cases hr : insertF R cap fuel (ch (quadrantF R b p.pt)) p with
    | none => rw [hr] at h; simp at h
    | some r =>
      obtain ⟨d', s'⟩ := r
      rw [hr] at h
      simp only [Option.some.injEq, Prod.mk.injEq] at h
      obtain ⟨rfl, rfl⟩ := h
      obtain ⟨a1, a2⟩ := ih (quadrantF R b p.pt) (quadBoxF R b (quadrantF R b p.pt)) (s + 1)
        (hq (quadrantF R b p.pt)).1 (quadBoxF_contains hp) d' s' hr
      refine ⟨?_, ?_⟩
      · intro i e
        obtain ⟨r, hr, e2⟩ := a1 i e
        exact ⟨r, mem_node.2 ⟨_, hr⟩, e2⟩
      · intro e
        obtain ⟨i1, i2, i3⟩ := a2 e
        have hslot : slotF R b (quadrantF R b p.pt) (ch (quadrantF R b p.pt)) s' = quadrantF R b p.pt := by
          have hb := (hq (quadrantF R b p.pt)).1.bb_eq
          cases hcq : ch (quadrantF R b p.pt) with
          | leaf lb lps =>
            rw [hcq] at hb
            simp only [QT.Tree.bb] at hb
            cases s' with
            | leaf _ _ => rfl
            | node _ _ => simp only [slotF, hb]; exact hok p.pt hS hp
          | node _ _ => cases s' <;> rfl
        rw [hslot]
        have hmemS : ∀ r ∈ s'.pts, r = p ∨ r ∈ (ch (quadrantF R b p.pt)).pts := by
          intro r hr
          simpa using i2.mem_iff.1 hr
        refine ⟨⟨rfl, hok, fun q => ?_⟩, ?_, ?_⟩
        · simp only [setChild]
          by_cases hqq : q = quadrantF R b p.pt
          · rw [if_pos hqq, hqq]
            refine ⟨i1, fun r hr => ?_⟩
            rcases hmemS r hr with rfl | hr
            · exact ⟨rfl, hp⟩
            · exact (hq _).2 r hr
          · rw [if_neg hqq]; exact hq q
        · rw [List.perm_iff_count] at i2 ⊢
          intro a
          have hca := i2 a
          generalize hqq : quadrantF R b p.pt = q0 at hca ⊢
          cases q0 <;>
            simp only [QT.Tree.pts, setChild, List.count_append, List.count_cons, if_true,
              reduceCtorEq, if_false] at hca ⊢ <;> omega
        · intro r hr
          obtain ⟨q, hrq⟩ := mem_node.1 hr
          by_cases hqq : q = quadrantF R b p.pt
          · subst hqq; exact i3 r hrq
          · intro e
            have := ((hq q).2 r hrq).1
            rw [e] at this
            exact hqq this.symm

theorem insertF_ends (hP : Divides R N S P) (hcap : 2 ≤ cap) (fuel : Nat) (hf : N ≤ fuel) (t : Tree) (bb : Box) (s : Nat) (p : Pos)
    (hi : InvF R S P cap t bb s) (hS : S p.pt) (hp : bb.Contains p.pt) : ∃ r, insertF R cap fuel t p = some r := by
  induction t generalizing bb s with
  | leaf b ps =>
    obtain ⟨rfl, hb, hc, hl, hd⟩ := hi
    simp only [insertF]
    cases hdup : duplicate p ps with
    | some i => exact ⟨_, rfl⟩
    | none =>
      simp only []
      by_cases hful : cap ≤ (ps ++ [p]).length
      · simp only [if_pos hful]
        obtain ⟨t, e⟩ := splitF_ends hP hcap fuel b s (ps ++ [p]) (by simp at hful ⊢; omega) hb (by omega)
          (by
            intro r hr
            rcases List.mem_append.1 hr with hr | hr
            · exact hc r hr
            · rw [List.mem_singleton.1 hr]; exact ⟨hS, hp⟩)
          (by
            rw [List.pairwise_append]
            refine ⟨hd, by simp, ?_⟩
            intro a ha c hc'
            rw [List.mem_singleton.1 hc']
            exact duplicate_none hdup a ha)
        exact ⟨_, by rw [e]⟩
      · simp only [if_neg hful]; exact ⟨_, rfl⟩
  | node b ch ih =>
    obtain ⟨rfl, hok, hq⟩ := hi
    obtain ⟨r, e⟩ := ih (quadrantF R b p.pt) _ (s + 1) (hq _).1 (quadBoxF_contains hp)
    exact ⟨_, by simp only [insertF, e]; rfl⟩

/-! ### Construction -/

/-- Invariant of the loop that adds the points. -/
structure StateInvF (R : Rounding) (S : Pt → Prop) (P : Nat → Box → Prop) (cap : Nat) (bb : Box) (all : List Pt) (k : Nat)
    (s : State) : Prop where
  inv : InvF R S P cap s.root bb 0
  perm : (s.root.pts.flatMap (group s.dups)).Perm (List.range k)
  ids : ∀ p ∈ s.root.pts, ∀ j ∈ group s.dups p, all[j]? = some p.pt
  fresh : ∀ j, k ≤ j → s.dups j = []

theorem stepF_inv (hP : Divides R N S P) (hcap : 2 ≤ cap) {fuel : Nat} {bb : Box} {all : List Pt} {k : Nat}
    {s : State} (h : StateInvF R S P cap bb all k s) {p : Pt} (hk : all[k]? = some p)
    (hS : S p) (hp : bb.Contains p) {d : Option Nat} {t : Tree}
    (e : insertF R cap fuel s.root ⟨k, p⟩ = some (d, t)) :
    StateInvF R S P cap bb all (k + 1) (match d with
      | some i => ⟨s.root, addDup s.dups i k⟩
      | none => ⟨t, s.dups⟩) := by
  obtain ⟨h1, h2⟩ := insertF_spec hP hcap fuel s.root bb 0 ⟨k, p⟩ h.inv hS hp d t e
  have hnod : (s.root.pts.flatMap (group s.dups)).Nodup :=
    h.perm.symm.nodup List.nodup_range
  have hidn : (s.root.pts.map Pos.id).Nodup := hnod.sublist (ids_sublist _ _)
  have hrange : (List.range (k + 1)).Perm (k :: List.range k) := by
    rw [List.range_succ]; exact List.perm_append_singleton _ _
  have hlt : ∀ r ∈ s.root.pts, r.id < k := by
    intro r hr
    have : r.id ∈ s.root.pts.flatMap (group s.dups) :=
      List.mem_flatMap.2 ⟨r, hr, by simp [group]⟩
    simpa using h.perm.mem_iff.1 this
  cases d with
  | some i =>
    obtain ⟨r, hr, hri, hrp⟩ := h1 i rfl
    refine ⟨h.inv, ?_, ?_, ?_⟩
    · exact (flatMap_addDup s.dups k i _ hidn (List.mem_map.2 ⟨r, hr, hri⟩)).trans
        ((List.Perm.cons k h.perm).trans hrange.symm)
    · intro q hq j hj
      simp only [group, addDup] at hj
      by_cases hqi : q.id = i
      · have hqr : q = r := by
          have := List.inj_on_of_nodup_map hidn hq hr (by rw [hqi, hri])
          exact this
        rw [if_pos hqi] at hj
        simp only [List.mem_append, List.mem_singleton] at hj
        rcases hj with (hj | hj) | hj
        · exact h.ids q hq j (by simp [group, hj])
        · rw [hj, hk, hqr, hrp]
        · exact h.ids q hq j (by simp [group, hj])
      · rw [if_neg hqi] at hj
        exact h.ids q hq j hj
    · intro j hj
      have : j ≠ i := by
        have := hlt r hr
        rw [hri] at this; omega
      simp only [addDup, this, if_false]
      exact h.fresh j (by omega)
  | none =>
    obtain ⟨i1, i2, _⟩ := h2 rfl
    refine ⟨i1, ?_, ?_, ?_⟩
    · refine (i2.flatMap_right _).trans ?_
      have : group s.dups ⟨k, p⟩ = [k] := by simp [group, h.fresh k (le_refl _)]
      simp only [List.flatMap_cons, this, List.singleton_append]
      exact (List.Perm.cons k h.perm).trans hrange.symm
    · intro q hq j hj
      rcases List.mem_cons.1 (i2.mem_iff.1 hq) with rfl | hq
      · have : group s.dups ⟨k, p⟩ = [k] := by simp [group, h.fresh k (le_refl _)]
        rw [this] at hj
        rw [List.mem_singleton.1 hj, hk]
      · exact h.ids q hq j hj
    · intro j hj; exact h.fresh j (by omega)

theorem splitF_mono (cap : Nat) (fuel : Nat) (bb : Box) (ps : List Pos) (t : Tree)
    (h : splitF R cap fuel bb ps = some t) : splitF R cap (fuel + 1) bb ps = some t := by
  induction fuel generalizing bb ps t with
  | zero => simp [splitF] at h
  | succ fuel ih =>
    have key : ∀ q, ∀ r, (match splitF R cap fuel (quadBoxF R bb q)
          (ps.filter fun p => quadrantF R bb p.pt = q) with
          | none => none
          | some s => some (QT.Tree.node bb (setChild (setChild
              (fun q => QT.Tree.leaf (quadBoxF R bb q) (ps.filter fun p => quadrantF R bb p.pt = q))
              (quadrantF R bb (midPt R (quadBoxF R bb q))) s) q s))) = some r →
        (match splitF R cap (fuel + 1) (quadBoxF R bb q)
          (ps.filter fun p => quadrantF R bb p.pt = q) with
          | none => none
          | some s => some (QT.Tree.node bb (setChild (setChild
              (fun q => QT.Tree.leaf (quadBoxF R bb q) (ps.filter fun p => quadrantF R bb p.pt = q))
              (quadrantF R bb (midPt R (quadBoxF R bb q))) s) q s))) = some r := by
      intro q r hr
      cases hs : splitF R cap fuel (quadBoxF R bb q) (ps.filter fun p => quadrantF R bb p.pt = q) with
      | none => rw [hs] at hr; simp at hr
      | some s => rw [ih _ _ _ hs]; rw [hs] at hr; exact hr
    rw [splitF] at h ⊢
    simp only [] at h ⊢
    split at h
    · rename_i hc; rw [if_pos hc]; exact key _ _ h
    · rename_i hc1
      rw [if_neg hc1]
      split at h
      · rename_i hc; rw [if_pos hc]; exact key _ _ h
      · rename_i hc2
        rw [if_neg hc2]
        split at h
        · rename_i hc; rw [if_pos hc]; exact key _ _ h
        · rename_i hc3
          rw [if_neg hc3]
          split at h
          · rename_i hc; rw [if_pos hc]; exact key _ _ h
          · rename_i hc4
            rw [if_neg hc4]; exact h

theorem insertF_mono (cap fuel : Nat) (t : Tree) (p : Pos) (r : Option Nat × Tree)
    (h : insertF R cap fuel t p = some r) : insertF R cap (fuel + 1) t p = some r := by
  induction t generalizing r with
  | leaf b ps =>
    simp only [insertF] at h ⊢
    cases hd : duplicate p ps with
    | some i => rw [hd] at h; exact h
    | none =>
      rw [hd] at h
      simp only [] at h ⊢
      by_cases hc : cap ≤ (ps ++ [p]).length
      · rw [if_pos hc] at h ⊢
        cases hs : splitF R cap fuel b (ps ++ [p]) with
        | none => rw [hs] at h; simp at h
        | some s => rw [splitF_mono _ _ _ _ _ hs]; rw [hs] at h; exact h
      · rw [if_neg hc] at h ⊢; exact h
  | node b ch ih =>
    simp only [insertF] at h ⊢
    cases hs : insertF R cap fuel (ch (quadrantF R b p.pt)) p with
    | none => rw [hs] at h; simp at h
    | some s => rw [ih _ _ hs]; rw [hs] at h; exact h

theorem buildLoopF_mono (cap fuel : Nat) (ps : List Pt) (k : Nat) (s r : State)
    (h : buildLoopF R cap fuel ps k s = some r) : buildLoopF R cap (fuel + 1) ps k s = some r := by
  induction ps generalizing k s with
  | nil => exact h
  | cons p ps ih =>
    simp only [buildLoopF] at h ⊢
    cases hi : insertF R cap fuel s.root ⟨k, p⟩ with
    | none => rw [hi] at h; simp at h
    | some v =>
      obtain ⟨d, t⟩ := v
      rw [insertF_mono _ _ _ _ _ hi]
      rw [hi] at h
      cases d with
      | some i => exact ih _ _ h
      | none => exact ih _ _ h

theorem buildLoopF_spec (hP : Divides R N S P) (hcap : 2 ≤ cap) {bb : Box} (all : List Pt)
    (hbb : ∀ p ∈ all, S p ∧ bb.Contains p) (rest : List Pt) (k : Nat) (hk : all.drop k = rest)
    (s : State) (h : StateInvF R S P cap bb all k s) :
    ∃ s', buildLoopF R cap N rest k s = some s' ∧ StateInvF R S P cap bb all all.length s' := by
  induction rest generalizing k s with
  | nil =>
    refine ⟨s, rfl, ?_⟩
    have hkl : all.length ≤ k := by simpa using hk
    have : k ≤ all.length := by
      by_contra hcon
      have hmem : all.length ∈ s.root.pts.flatMap (group s.dups) :=
        h.perm.mem_iff.2 (by simp; omega)
      obtain ⟨p, hp, hj⟩ := List.mem_flatMap.1 hmem
      have := h.ids p hp _ hj
      simp at this
    have : k = all.length := by omega
    subst this; exact h
  | cons p rest ih =>
    have hkp : all[k]? = some p := by
      have : (all.drop k)[0]? = some p := by rw [hk]; rfl
      simpa using this
    have hdrop : all.drop (k + 1) = rest := by
      have : (all.drop k).tail = rest := by rw [hk]; rfl
      simpa using this
    obtain ⟨hS, hc⟩ := hbb p (List.mem_of_getElem? hkp)
    obtain ⟨⟨d, t⟩, e1⟩ := insertF_ends hP hcap N le_rfl s.root bb 0 ⟨k, p⟩ h.inv hS hc
    have hstep := stepF_inv hP hcap h hkp hS hc e1
    cases d with
    | some i =>
      obtain ⟨s', e2, h2⟩ := ih (k + 1) hdrop _ hstep
      exact ⟨s', by simp only [buildLoopF, e1]; exact e2, h2⟩
    | none =>
      obtain ⟨s', e2, h2⟩ := ih (k + 1) hdrop _ hstep
      exact ⟨s', by simp only [buildLoopF, e1]; exact e2, h2⟩

/-! ### Search -/

theorem filter_childF {q cb : Box} {t : Tree} {s : Nat} (hi : InvF R S P cap t cb s)
    (ho : overlaps q t.bb = false) : (t.pts.filter fun p => iswithin q p.pt) = [] := by
  rw [List.filter_eq_nil_iff]
  intro p hp hw
  have := overlaps_of_inside hw (hi.contains p hp)
  rw [hi.bb_eq] at ho
  rw [ho] at this; cases this

theorem searchLoop_eqF (q : Box) (st : List Tree) (h : ∀ t ∈ st, ∃ bb s, InvF R S P cap t bb s) :
    searchLoop q st = (st.flatMap fun t => t.pts.filter fun p => iswithin q p.pt).map Pos.id := by
  fun_induction searchLoop q st with
  | case1 => rfl
  | case2 b ps rest ih =>
    rw [ih (fun t ht => h t (by simp [ht]))]
    simp [QT.Tree.pts]
  | case3 b ch rest ih =>
    obtain ⟨bb, s, hb, _, hch⟩ := h (.node b ch) (by simp)
    rw [ih]
    · congr 1
      simp only [List.flatMap_append, List.flatMap_cons]
      congr 1
      have hk : ∀ k, (if overlaps q (ch k).bb = true
          then ((ch k).pts.filter fun p => iswithin q p.pt) else [])
          = (ch k).pts.filter fun p => iswithin q p.pt := by
        intro k
        split
        · rfl
        · rename_i ho
          exact (filter_childF (hch k).1 (by simpa using ho)).symm
      simp only [QT.Tree.pts, List.filter_append]
      rw [← hk .lr, ← hk .ll, ← hk .ur, ← hk .ul]
      simp only [pushed, List.filter_cons, List.filter_nil]
      cases overlaps q (ch .lr).bb <;> cases overlaps q (ch .ll).bb <;>
        cases overlaps q (ch .ur).bb <;> cases overlaps q (ch .ul).bb <;> simp
    · intro t ht
      rcases List.mem_append.1 ht with ht | ht
      · simp only [pushed, List.mem_map] at ht
        obtain ⟨k, _, rfl⟩ := ht
        exact ⟨_, _, (hch k).1⟩
      · exact h t (by simp [ht])

theorem searchF_exact {bb : Box} {pts : List Pt} {s : State} (hI : StateInvF R S P cap bb pts pts.length s) (q : Box) :
    (search s q).Nodup ∧ ∀ i, i ∈ search s q ↔ ∃ p, pts[i]? = some p ∧ q.Inside p := by
  have hloop : searchLoop q [s.root]
      = (s.root.pts.filter fun p => iswithin q p.pt).map Pos.id := by
    rw [searchLoop_eqF (R := R) (S := S) (P := P) (cap := cap) q [s.root] (by simpa using ⟨_, _, hI.inv⟩)]
    simp
  have hperm : (search s q).Perm
      ((s.root.pts.filter fun p => iswithin q p.pt).flatMap (group s.dups)) := by
    unfold search
    rw [hloop]
    refine ((List.reverse_perm _).flatMap_right _).trans ?_
    rw [List.flatMap_map]
    exact List.Perm.refl _
  have hsub : ((s.root.pts.filter fun p => iswithin q p.pt).flatMap (group s.dups)).Sublist
      (s.root.pts.flatMap (group s.dups)) := List.filter_sublist.flatMap _
  have hnod : (s.root.pts.flatMap (group s.dups)).Nodup := hI.perm.symm.nodup List.nodup_range
  refine ⟨hperm.symm.nodup (hnod.sublist hsub), fun i => ?_⟩
  rw [hperm.mem_iff, List.mem_flatMap]
  constructor
  · rintro ⟨p, hp, hi⟩
    obtain ⟨hp1, hp2⟩ := List.mem_filter.1 hp
    refine ⟨p.pt, hI.ids p hp1 i hi, ?_⟩
    simpa [iswithin, Box.Inside] using hp2
  · rintro ⟨x, hx, hin⟩
    have hlt : i < pts.length := by
      by_contra hh
      rw [List.getElem?_eq_none (by omega)] at hx; cases hx
    have hmem : i ∈ s.root.pts.flatMap (group s.dups) := hI.perm.mem_iff.2 (by simpa using hlt)
    obtain ⟨p, hp, hi⟩ := List.mem_flatMap.1 hmem
    refine ⟨p, List.mem_filter.2 ⟨hp, ?_⟩, hi⟩
    have := hI.ids p hp i hi
    rw [this] at hx
    rw [Option.some.inj hx]
    simpa [iswithin, Box.Inside] using hin

end Karta.Float.QT
