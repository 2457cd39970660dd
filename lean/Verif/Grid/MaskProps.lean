import Verif.Grid.Mask
import Verif.Grid.WindowProps
import Mathlib.Algebra.BigOperators.Intervals
import Mathlib.Data.List.Rotate

/-!
Properties C20 (polygon masks do not depend on vertex order) and C66 (masking keeps what is inside).
-/

namespace Karta.Grid
open Karta Karta.Band Karta.Band.Spec Karta.Band.Indexer Karta.Py

variable {α : Type _}

/-! ### Specification -/

/-- The same outcome: the same exception, or the same mask on the `ny × nx` cells. -/
def SameMask (ny nx : Nat) : Except Err (Arr Bool) → Except Err (Arr Bool) → Prop
  | .ok a, .ok b => a.ny = ny ∧ a.nx = nx ∧ b.ny = ny ∧ b.nx = nx ∧ ∀ r c : Nat, r < ny → c < nx → a.get r c = b.get r c
  | .error a, .error b => a = b
  | _, _ => False

/-- The `k`-th vertex, counting round and round. -/
def cyc (pts : List (ℚ × ℚ)) (k : Nat) : ℚ × ℚ := (pts[k % pts.length]?).getD (0, 0)

/-! ### Lemmas -/

/-- What a segment adds to the counter of cell `(r, c)`. -/
def contrib (T : Xform) (p0 p1 : ℚ × ℚ) (r c : Nat) : Int :=
  let q0 := vertexIdx T p0
  let q1 := vertexIdx T p1
  let slope := (p1.1 - p0.1) / (p1.2 - p0.2)
  if p0.2 < p1.2 then
    if q0.1 ≤ r ∧ (r : Int) < q1.1 ∧ rint ((((r : Int) - q0.1 : Int) : ℚ) * slope + q0.2) ≤ c then 1 else 0
  else if p1.2 < p0.2 then
    if q1.1 ≤ r ∧ (r : Int) < q0.1 ∧ rint ((((r : Int) - q1.1 : Int) : ℚ) * slope + q1.2) ≤ c then -1 else 0
  else 0

/-- Whether a segment raises. -/
def Raises (T : Xform) (ny : Nat) (p0 p1 : ℚ × ℚ) : Prop :=
  (0 ≤ (vertexIdx T p0).1 ∧ (vertexIdx T p0).1 < ny) ∧ (0 ≤ (vertexIdx T p1).1 ∧ (vertexIdx T p1).1 < ny) ∧
    p1.2 = p0.2 ∧ (vertexIdx T p1).1 < (vertexIdx T p0).1

instance (T : Xform) (ny : Nat) (p0 p1 : ℚ × ℚ) : Decidable (Raises T ny p0 p1) := by
  unfold Raises; infer_instance

theorem range1_cons {a b : Int} (h : a < b) : range1 a b = a :: range1 (a + 1) b := by
  unfold range1
  obtain ⟨n, hn⟩ : ∃ n : Nat, (b - a).toNat = n + 1 := ⟨(b - a).toNat - 1, by omega⟩
  have h2 : (b - (a + 1)).toNat = n := by omega
  rw [hn, h2, List.range_succ_eq_map]
  simp only [List.map_cons, List.map_map, Nat.cast_zero, add_zero, List.cons.injEq, true_and]
  apply List.map_congr_left
  intro k _
  simp only [Function.comp_apply]
  push_cast
  ring

theorem range1_nil {a b : Int} (h : b ≤ a) : range1 a b = [] := by
  unfold range1
  have : (b - a).toNat = 0 := by omega
  rw [this]; rfl

theorem markRow_self (nx r c : Nat) (j d : Int) (m : Int → Int → Int) (hc : c < nx) :
    markRow nx r j d m r c = m r c + if j ≤ c then d else 0 := by
  unfold markRow
  by_cases h : j ≤ c
  · have h1 : j < nx := by omega
    simp only [if_pos h1, if_pos h]
    rw [if_pos ⟨trivial, by omega⟩]
  · rw [if_neg h]
    by_cases h1 : j < nx
    · simp only [if_pos h1]
      rw [if_neg (by rintro ⟨-, h2⟩; omega), add_zero]
    · rw [if_neg h1, add_zero]

theorem list_sum_range (n : Nat) (f : Nat → Int) : ((List.range n).map f).sum = ∑ e ∈ Finset.range n, f e := by
  induction n with
  | zero => rfl
  | succ n ih => rw [List.range_succ, List.map_append, List.sum_append, ih, Finset.sum_range_succ]; simp

theorem markRows_spec (ny nx : Nat) (slope : ℚ) (ib jb d : Int) (r c : Nat) (hr : r < ny) (hc : c < nx) :
    ∀ (n : Nat) (a b : Int), (b - a).toNat = n → ∀ m : Int → Int → Int,
      markRows ny nx slope ib jb d (range1 a b) m r c = m r c +
        if a ≤ r ∧ (r : Int) < b ∧ rint ((((r : Int) - ib : Int) : ℚ) * slope + jb) ≤ c then d else 0 := by
  intro n
  induction n with
  | zero =>
    intro a b h m
    rw [range1_nil (by omega), if_neg (by omega)]
    simp [markRows]
  | succ n ih =>
    intro a b h m
    rw [range1_cons (by omega)]
    have := ih (a + 1) b (by omega)
    simp only [markRows, List.foldl_cons] at this ⊢
    rw [this]
    by_cases ha : a = r
    · subst ha
      rw [if_pos (by omega), if_neg (by omega)]
      rw [markRow_self nx r c _ d m hc]
      by_cases hj : rint ((((r : Int) - ib : Int) : ℚ) * slope + jb) ≤ c
      · rw [if_pos hj, if_pos ⟨by omega, by omega, hj⟩, add_zero]
      · rw [if_neg hj, if_neg (by rintro ⟨-, -, h⟩; exact hj h), add_zero]
    · have e : (if 0 ≤ a ∧ a < ny then markRow nx a (rint (((a - ib : Int) : ℚ) * slope + jb)) d m else m) r c = m r c := by
        split_ifs
        · unfold markRow
          split_ifs
          · simp only; rw [if_neg (by rintro ⟨h, -⟩; exact ha h.symm)]
          · rfl
        · rfl
      rw [e]
      congr 1
      by_cases hx : a + 1 ≤ r ∧ (r : Int) < b ∧ rint ((((r : Int) - ib : Int) : ℚ) * slope + jb) ≤ c
      · rw [if_pos hx, if_pos ⟨by omega, hx.2.1, hx.2.2⟩]
      · rw [if_neg hx, if_neg (by rintro ⟨h1, h2, h3⟩; exact hx ⟨by omega, h2, h3⟩)]

theorem markSegment_spec (T : Xform) (ny nx : Nat) (p0 p1 : ℚ × ℚ) (m : Int → Int → Int) :
    (Raises T ny p0 p1 → markSegment T ny nx p0 p1 m = .error .zeroDivision) ∧
    (¬ Raises T ny p0 p1 → ∃ m', markSegment T ny nx p0 p1 m = .ok m' ∧
      ∀ r c : Nat, r < ny → c < nx → m' r c = m r c + contrib T p0 p1 r c) := by
  unfold markSegment
  constructor
  · rintro ⟨h1, h2, h3, h4⟩
    simp only
    rw [if_pos (Or.inl ⟨h1, h2⟩), if_neg (by rw [h3]; exact lt_irrefl _), if_pos ⟨h3, h4⟩]
  · intro hr
    simp only
    by_cases hc : ((0 ≤ (vertexIdx T p0).1 ∧ (vertexIdx T p0).1 < ny) ∧ (0 ≤ (vertexIdx T p1).1 ∧ (vertexIdx T p1).1 < ny)) ∨
        p1.2 ≠ p0.2
    · rw [if_pos hc]
      by_cases hu : p1.2 > p0.2
      · rw [if_pos hu]
        refine ⟨_, rfl, ?_⟩
        intro r c h1 h2
        rw [markRows_spec ny nx _ _ _ _ r c h1 h2 _ _ _ rfl]
        simp only [contrib, if_pos (show p0.2 < p1.2 from hu)]
      · rw [if_neg hu]
        by_cases he : p1.2 = p0.2
        · have hc' := hc.resolve_right (by simp [he])
          have hn : ¬ (p1.2 = p0.2 ∧ (vertexIdx T p1).1 < (vertexIdx T p0).1) := by
            rintro ⟨-, h⟩; exact hr ⟨hc'.1, hc'.2, he, h⟩
          rw [if_neg hn]
          refine ⟨_, rfl, ?_⟩
          intro r c h1 h2
          rw [range1_nil (by by_contra h; exact hn ⟨he, by omega⟩)]
          simp [markRows, contrib, he]
        · rw [if_neg (by rintro ⟨h, -⟩; exact he h)]
          refine ⟨_, rfl, ?_⟩
          intro r c h1 h2
          rw [markRows_spec ny nx _ _ _ _ r c h1 h2 _ _ _ rfl]
          have hl : p1.2 < p0.2 := lt_of_le_of_ne (not_lt.1 hu) he
          simp only [contrib, if_neg (show ¬ p0.2 < p1.2 from hu), if_pos hl]
    · rw [if_neg hc]
      push Not at hc
      refine ⟨m, rfl, ?_⟩
      intro r c _ _
      simp [contrib, hc.2]

/-- Consecutive pairs starting at `p0`. -/
def pairs : ℚ × ℚ → List (ℚ × ℚ) → List ((ℚ × ℚ) × (ℚ × ℚ))
  | _, [] => []
  | p0, p1 :: ps => (p0, p1) :: pairs p1 ps

theorem pairs_range (n : Nat) : ∀ f : Nat → ℚ × ℚ,
    pairs (f 0) ((List.range n).map fun e => f (e + 1)) = (List.range n).map fun e => (f e, f (e + 1)) := by
  induction n with
  | zero => intro f; rfl
  | succ n ih =>
    intro f
    rw [List.range_succ_eq_map]
    simp only [List.map_cons, List.map_map, pairs, List.cons.injEq]
    refine ⟨by simp, ?_⟩
    have := ih (fun e => f (e + 1))
    simpa [Function.comp_def] using this

theorem maskLoop_spec (T : Xform) (ny nx : Nat) (ps : List (ℚ × ℚ)) : ∀ (p0 : ℚ × ℚ) (m : Int → Int → Int),
    ((∃ e ∈ pairs p0 ps, Raises T ny e.1 e.2) → maskLoop T ny nx p0 ps m = .error .zeroDivision) ∧
    ((¬ ∃ e ∈ pairs p0 ps, Raises T ny e.1 e.2) → ∃ m', maskLoop T ny nx p0 ps m = .ok m' ∧
      ∀ r c : Nat, r < ny → c < nx → m' r c = m r c + ((pairs p0 ps).map fun e => contrib T e.1 e.2 r c).sum) := by
  induction ps with
  | nil => intro p0 m; exact ⟨by simp [pairs], fun _ => ⟨m, rfl, by simp [pairs]⟩⟩
  | cons p1 ps ih =>
    intro p0 m
    obtain ⟨h1, h2⟩ := markSegment_spec T ny nx p0 p1 m
    unfold maskLoop
    by_cases hr : Raises T ny p0 p1
    · rw [h1 hr]
      exact ⟨fun _ => rfl, fun h => absurd ⟨(p0, p1), by simp [pairs], hr⟩ h⟩
    · obtain ⟨m', e, hm⟩ := h2 hr
      rw [e]
      simp only
      obtain ⟨i1, i2⟩ := ih p1 m'
      have hiff : (∃ e ∈ pairs p0 (p1 :: ps), Raises T ny e.1 e.2) ↔ ∃ e ∈ pairs p1 ps, Raises T ny e.1 e.2 := by
        simp [pairs, hr]
      rw [hiff]
      refine ⟨i1, fun h => ?_⟩
      obtain ⟨m2, e2, hm2⟩ := i2 h
      refine ⟨m2, e2, ?_⟩
      intro r c hr hc
      rw [hm2 r c hr hc, hm r c hr hc]
      simp only [pairs, List.map_cons, List.sum_cons]
      ring

theorem cyc_add (pts : List (ℚ × ℚ)) (k : Nat) : cyc pts (k + pts.length) = cyc pts k := by
  simp [cyc]

theorem cyc_rotate (pts : List (ℚ × ℚ)) (k e : Nat) : cyc (pts.rotate k) e = cyc pts (e + k) := by
  unfold cyc
  rw [List.length_rotate]
  by_cases h : pts.length = 0
  · have := List.length_eq_zero_iff.1 h; subst this; simp
  · have hlt : e % pts.length < pts.length := Nat.mod_lt _ (by omega)
    rw [List.getElem?_rotate hlt]
    congr 2
    rw [Nat.mod_add_mod]

theorem shift_sum (n : Nat) (F : Nat → Int) (hF : ∀ k, F (k + n) = F k) (b : Nat) :
    ∑ e ∈ Finset.range n, F (e + b) = ∑ e ∈ Finset.range n, F e := by
  induction b with
  | zero => simp
  | succ b ih =>
    rw [← ih]
    have h1 := Finset.sum_range_succ (fun e => F (e + b)) n
    have h2 := Finset.sum_range_succ' (fun e => F (e + b)) n
    have h3 : F (n + b) = F (0 + b) := by rw [add_comm n b, hF, zero_add]
    have h4 : ∀ e, F (e + 1 + b) = F (e + (b + 1)) := fun e => by congr 1; ring
    simp only [h4] at h2
    linarith

theorem shift_exists (n : Nat) (hn : 0 < n) (R : Nat → Prop) (hR : ∀ k, R (k + n) ↔ R k) (b : Nat) :
    (∃ e, e < n ∧ R (e + b)) ↔ ∃ e, e < n ∧ R e := by
  induction b with
  | zero => simp
  | succ b ih =>
    rw [← ih]
    constructor
    · rintro ⟨e, he, h⟩
      by_cases h1 : e + 1 < n
      · exact ⟨e + 1, h1, by rwa [show e + 1 + b = e + (b + 1) by ring]⟩
      · refine ⟨0, hn, ?_⟩
        rw [show e + (b + 1) = b + n by omega, hR] at h
        rwa [zero_add]
    · rintro ⟨e, he, h⟩
      cases e with
      | zero => exact ⟨n - 1, by omega, by rw [show n - 1 + (b + 1) = b + n by omega, hR]; rwa [zero_add] at h⟩
      | succ e => exact ⟨e, by omega, by rwa [show e + (b + 1) = e + 1 + b by ring]⟩

/-- The transform is not degenerate. -/
def Xform.Solid (T : Xform) : Prop := T.dx ≠ 0 ∧ T.dy ≠ 0 ∧ T.dx * T.dy - T.sx * T.sy ≠ 0

/-- The counter of a cell: the sum over all sides. -/
def total (T : Xform) (pts : List (ℚ × ℚ)) (r c : Nat) : Int :=
  ∑ e ∈ Finset.range pts.length, contrib T (cyc pts e) (cyc pts (e + 1)) r c

theorem maskPoly_spec (T : Xform) (ny nx : Nat) (pts : List (ℚ × ℚ)) (hne : pts ≠ [])
    (hU : (northUp T ny nx).Solid) :
    ((∃ e, e < pts.length ∧ Raises (northUp T ny nx) ny (cyc pts e) (cyc pts (e + 1))) →
      maskPoly T ny nx pts = .error .zeroDivision) ∧
    ((¬ ∃ e, e < pts.length ∧ Raises (northUp T ny nx) ny (cyc pts e) (cyc pts (e + 1))) →
      ∃ M, maskPoly T ny nx pts = .ok M ∧ M.ny = ny ∧ M.nx = nx ∧ ∀ r c : Nat, r < ny → c < nx →
        M.get r c = decide (total (northUp T ny nx) pts r c % 256 ≠ 0)) := by
  obtain ⟨h1, h2, h3⟩ := hU
  cases pts with
  | nil => exact absurd rfl hne
  | cons p ps =>
  unfold maskPoly
  simp only
  rw [if_neg (by rintro (h | h | h); exacts [h1 h, h2 h, h3 h])]
  generalize hb : lowest ps 1 p 0 = b
  generalize hU : northUp T ny nx = U
  generalize hl : p :: ps = pts
  have hn : 0 < pts.length := by rw [← hl]; simp
  have hpr := pairs_range pts.length (fun e => cyc pts (e + b))
  rw [zero_add] at hpr
  obtain ⟨l1, l2⟩ := maskLoop_spec U ny nx ((List.range pts.length).map fun e => cyc pts (e + 1 + b)) (cyc pts b) (fun _ _ => 0)
  rw [hpr] at l1 l2
  have hex : (∃ e ∈ (List.range pts.length).map fun e => (cyc pts (e + b), cyc pts (e + 1 + b)), Raises U ny e.1 e.2) ↔
      ∃ e, e < pts.length ∧ Raises U ny (cyc pts e) (cyc pts (e + 1)) := by
    rw [← shift_exists pts.length hn (fun e => Raises U ny (cyc pts e) (cyc pts (e + 1))) (by
      intro k
      rw [cyc_add, show k + pts.length + 1 = k + 1 + pts.length by ring, cyc_add]) b]
    simp only [List.mem_map, List.mem_range, exists_exists_and_eq_and]
    have : ∀ e, e + 1 + b = e + b + 1 := fun e => by ring
    simp only [this]
  rw [hex] at l1 l2
  constructor
  · intro h
    have := l1 h
    simp only [cyc] at this
    rw [this]
  · intro h
    obtain ⟨m, e, hm⟩ := l2 h
    refine ⟨⟨ny, nx, fun r c => decide (m r c % 256 ≠ 0)⟩, ?_, rfl, rfl, ?_⟩
    · simp only [cyc] at e
      rw [e]
    · intro r c hr hc
      simp only
      rw [hm r c hr hc, zero_add]
      have hs : (((List.range pts.length).map fun e => (cyc pts (e + b), cyc pts (e + 1 + b))).map
          fun e => contrib U e.1 e.2 r c).sum = total U pts r c := by
        unfold total
        rw [← shift_sum pts.length (fun e => contrib U (cyc pts e) (cyc pts (e + 1)) r c) (by
          intro k
          rw [cyc_add, show k + pts.length + 1 = k + 1 + pts.length by ring, cyc_add]) b]
        rw [List.map_map, list_sum_range]
        apply Finset.sum_congr rfl
        intro e _
        simp only [Function.comp_apply]
        rw [show e + 1 + b = e + b + 1 by ring]
      rw [hs]

theorem maskPoly_degenerate (T : Xform) (ny nx : Nat) (pts : List (ℚ × ℚ)) (hne : pts ≠ [])
    (hU : ¬ (northUp T ny nx).Solid) : maskPoly T ny nx pts = .error .zeroDivision := by
  cases pts with
  | nil => exact absurd rfl hne
  | cons p ps =>
    unfold maskPoly
    simp only
    rw [if_pos]
    unfold Xform.Solid at hU
    tauto

/-- C20: the outcome does not depend on the vertex at which the polygon is started, whatever the grid and
the polygon. -/
theorem C20_start_vertex (T : Xform) (ny nx : Nat) (pts : List (ℚ × ℚ)) (k : Nat) :
    SameMask ny nx (maskPoly T ny nx (pts.rotate k)) (maskPoly T ny nx pts) := by
  by_cases hne : pts = []
  · subst hne; simp [maskPoly, SameMask]
  have hne' : pts.rotate k ≠ [] := by
    intro h
    apply hne
    rw [← List.length_eq_zero_iff] at h ⊢
    rwa [List.length_rotate] at h
  by_cases hU : (northUp T ny nx).Solid
  · have hn : 0 < pts.length := List.length_pos_iff.2 hne
    obtain ⟨a1, a2⟩ := maskPoly_spec T ny nx pts hne hU
    obtain ⟨b1, b2⟩ := maskPoly_spec T ny nx (pts.rotate k) hne' hU
    have per : ∀ e, cyc pts (e + pts.length + 1) = cyc pts (e + 1) := fun e => by
      rw [show e + pts.length + 1 = e + 1 + pts.length by ring, cyc_add]
    have hiff : (∃ e, e < (pts.rotate k).length ∧ Raises (northUp T ny nx) ny (cyc (pts.rotate k) e) (cyc (pts.rotate k) (e + 1))) ↔
        ∃ e, e < pts.length ∧ Raises (northUp T ny nx) ny (cyc pts e) (cyc pts (e + 1)) := by
      rw [← shift_exists pts.length hn (fun e => Raises (northUp T ny nx) ny (cyc pts e) (cyc pts (e + 1))) (by
        intro e; rw [cyc_add, per]) k]
      simp only [List.length_rotate, cyc_rotate]
      have : ∀ e, e + 1 + k = e + k + 1 := fun e => by ring
      simp only [this]
    have htot : ∀ r c, total (northUp T ny nx) (pts.rotate k) r c = total (northUp T ny nx) pts r c := by
      intro r c
      unfold total
      rw [← shift_sum pts.length (fun e => contrib (northUp T ny nx) (cyc pts e) (cyc pts (e + 1)) r c) (by
        intro e; rw [cyc_add, per]) k]
      rw [List.length_rotate]
      apply Finset.sum_congr rfl
      intro e _
      rw [cyc_rotate, cyc_rotate, show e + 1 + k = e + k + 1 by ring]
    rw [hiff] at b1 b2
    by_cases hr : ∃ e, e < pts.length ∧ Raises (northUp T ny nx) ny (cyc pts e) (cyc pts (e + 1))
    · rw [a1 hr, b1 hr]; rfl
    · obtain ⟨M, e1, e2, e3, e4⟩ := a2 hr
      obtain ⟨M', f1, f2, f3, f4⟩ := b2 hr
      rw [e1, f1]
      refine ⟨f2, f3, e2, e3, ?_⟩
      intro r c h1 h2
      rw [e4 r c h1 h2, f4 r c h1 h2, htot]
  · rw [maskPoly_degenerate T ny nx pts hne hU, maskPoly_degenerate T ny nx _ hne' hU]
    rfl

theorem contrib_swap (T : Xform) (p q : ℚ × ℚ) (r c : Nat) : contrib T q p r c = - contrib T p q r c := by
  have hs : (p.1 - q.1) / (p.2 - q.2) = (q.1 - p.1) / (q.2 - p.2) := by
    rw [← neg_sub q.1, ← neg_sub q.2, neg_div_neg_eq]
  unfold contrib
  simp only [hs]
  rcases lt_trichotomy p.2 q.2 with h | h | h
  · simp only [if_neg (not_lt.2 h.le), if_pos h]
    split_ifs <;> rfl
  · simp [h]
  · simp only [if_neg (not_lt.2 h.le), if_pos h]
    split_ifs <;> rfl

theorem cyc_reverse (pts : List (ℚ × ℚ)) (e : Nat) (he : e ≤ pts.length) (hn : 0 < pts.length) :
    cyc pts.reverse e = cyc pts (2 * pts.length - 1 - e) := by
  unfold cyc
  rw [List.length_reverse]
  congr 1
  by_cases h : e = pts.length
  · rw [h, Nat.mod_self, List.getElem?_reverse (by omega)]
    congr 1
    rw [show 2 * pts.length - 1 - pts.length = pts.length - 1 by omega, Nat.mod_eq_of_lt (by omega)]
    rfl
  · rw [Nat.mod_eq_of_lt (by omega), List.getElem?_reverse (by omega)]
    congr 1
    rw [show 2 * pts.length - 1 - e = (pts.length - 1 - e) + pts.length by omega, Nat.add_mod_right,
      Nat.mod_eq_of_lt (by omega)]

/-- No side is horizontal in a grid whose rows are slanted (only then can a side raise). -/
def Safe (T : Xform) (pts : List (ℚ × ℚ)) : Prop :=
  T.sy = 0 ∨ ∀ e, (cyc pts e).2 ≠ (cyc pts (e + 1)).2

theorem Safe.not_raises {T : Xform} {pts : List (ℚ × ℚ)} (h : Safe T pts) (ny nx e : Nat) :
    ¬ Raises (northUp T ny nx) ny (cyc pts e) (cyc pts (e + 1)) := by
  rintro ⟨-, -, h3, h4⟩
  rcases h with h | h
  · have hs : (northUp T ny nx).sy = 0 := h
    simp only [vertexIdx, hs, h3, zero_div, zero_mul, sub_zero] at h4
    omega
  · exact h e h3.symm

theorem Safe.reverse {T : Xform} {pts : List (ℚ × ℚ)} (h : Safe T pts) (hne : pts ≠ []) : Safe T pts.reverse := by
  rcases h with h | h
  · exact Or.inl h
  · right
    have hn : 0 < pts.length := List.length_pos_iff.2 hne
    have key : ∀ e, e < pts.length → (cyc pts.reverse e).2 ≠ (cyc pts.reverse (e + 1)).2 := by
      intro e he
      rw [cyc_reverse pts e (by omega) hn, cyc_reverse pts (e + 1) (by omega) hn,
        show 2 * pts.length - 1 - e = 2 * pts.length - 1 - (e + 1) + 1 by omega]
      exact (h _).symm
    intro e
    have hm : ∀ k, cyc pts.reverse k = cyc pts.reverse (k % pts.length) := by
      intro k; simp [cyc]
    have h1 := key (e % pts.length) (Nat.mod_lt _ hn)
    have h2 : cyc pts.reverse (e + 1) = cyc pts.reverse (e % pts.length + 1) := by
      rw [hm (e + 1), hm (e % pts.length + 1), Nat.mod_add_mod]
    rw [hm e, h2]
    exact h1

/-- C20, for polygons without horizontal sides or grids whose rows are not slanted: the mask is the same
whichever way round the vertices are listed. -/
theorem C20_reversal_partial (T : Xform) (ny nx : Nat) (pts : List (ℚ × ℚ)) (hs : Safe T pts) :
    SameMask ny nx (maskPoly T ny nx pts.reverse) (maskPoly T ny nx pts) := by
  by_cases hne : pts = []
  · subst hne; simp [maskPoly, SameMask]
  have hne' : pts.reverse ≠ [] := by simpa using hne
  have hn : 0 < pts.length := List.length_pos_iff.2 hne
  by_cases hU : (northUp T ny nx).Solid
  · obtain ⟨-, a2⟩ := maskPoly_spec T ny nx pts hne hU
    obtain ⟨-, b2⟩ := maskPoly_spec T ny nx pts.reverse hne' hU
    obtain ⟨M, e1, e2, e3, e4⟩ := a2 (by rintro ⟨e, -, h⟩; exact hs.not_raises ny nx e h)
    obtain ⟨M', f1, f2, f3, f4⟩ := b2 (by rintro ⟨e, -, h⟩; exact (hs.reverse hne).not_raises ny nx e h)
    rw [e1, f1]
    refine ⟨f2, f3, e2, e3, ?_⟩
    intro r c h1 h2
    rw [e4 r c h1 h2, f4 r c h1 h2]
    have htot : total (northUp T ny nx) pts.reverse r c = - total (northUp T ny nx) pts r c := by
      unfold total
      rw [List.length_reverse]
      set F : Nat → Int := fun e => contrib (northUp T ny nx) (cyc pts e) (cyc pts (e + 1)) r c with hF
      rw [← shift_sum pts.length F (by
        intro e
        simp only [hF]
        rw [cyc_add, show e + pts.length + 1 = e + 1 + pts.length by ring, cyc_add]) (pts.length - 1)]
      rw [← Finset.sum_range_reflect (fun e => F (e + (pts.length - 1))), ← Finset.sum_neg_distrib]
      apply Finset.sum_congr rfl
      intro e he
      have he := Finset.mem_range.1 he
      simp only [hF]
      rw [cyc_reverse pts e (by omega) hn, cyc_reverse pts (e + 1) (by omega) hn, contrib_swap,
        show 2 * pts.length - 1 - (e + 1) = pts.length - 1 - e + (pts.length - 1) by omega,
        show 2 * pts.length - 1 - e = pts.length - 1 - e + (pts.length - 1) + 1 by omega]
    rw [htot]
    congr 1
    rw [eq_iff_iff]
    omega
  · rw [maskPoly_degenerate T ny nx pts hne hU, maskPoly_degenerate T ny nx _ hne' hU]
    rfl

/-! ### Outside the polygon -/

theorem northUp_pos {T : Xform} (hx : 0 < T.dx) (hy : 0 < T.dy) (ny nx : Nat) : northUp T ny nx = T := by
  unfold northUp
  rw [if_neg (not_lt.2 hx.le), if_neg (not_lt.2 hx.le), if_neg (not_lt.2 hy.le), if_neg (not_lt.2 hy.le)]

theorem solid_pos {T : Xform} (hx : 0 < T.dx) (hy : 0 < T.dy) (hsx : T.sx = 0) : T.Solid :=
  ⟨hx.ne', hy.ne', by rw [hsx, zero_mul, sub_zero]; exact (mul_pos hx hy).ne'⟩

theorem vertexIdx_unskewed {T : Xform} (hsx : T.sx = 0) (hsy : T.sy = 0) (p : ℚ × ℚ) :
    vertexIdx T p = (rint ((p.2 - T.y0) / T.dy), rint ((p.1 - T.x0) / T.dx)) := by
  simp [vertexIdx, hsx, hsy]

theorem cyc_mem {pts : List (ℚ × ℚ)} (hne : pts ≠ []) (k : Nat) : cyc pts k ∈ pts := by
  unfold cyc
  have h : k % pts.length < pts.length := Nat.mod_lt _ (List.length_pos_iff.2 hne)
  rw [List.getElem?_eq_getElem h, Option.getD_some]
  exact List.getElem_mem h

theorem rint_le_of_le {q : ℚ} {n : Int} (h : q ≤ n) : rint q ≤ n := by
  have := rint_mono h; rwa [rint_int] at this

theorem le_rint_of_le {q : ℚ} {n : Int} (h : n ≤ q) : n ≤ rint q := by
  have := rint_mono h; rwa [rint_int] at this

theorem rint_le_of_lt {q : ℚ} {n : Int} (h : q < n + 1 / 2) : rint q ≤ n := by
  have := (abs_le.1 (rint_near q)).1
  have : (rint q : ℚ) < ((n + 1 : Int) : ℚ) := by push_cast; linarith
  have : rint q < n + 1 := by exact_mod_cast this
  omega

theorem lt_rint_of_lt {q : ℚ} {n : Int} (h : n + 1 / 2 < q) : n < rint q := by
  have := (abs_le.1 (rint_near q)).2
  have : (n : ℚ) < (rint q : ℚ) := by linarith
  exact_mod_cast this

/-- C20: rows of cells above all vertices and rows below all vertices are outside. -/
theorem C20_outside_rows (T : Xform) (ny nx : Nat) (pts : List (ℚ × ℚ)) (hne : pts ≠ []) (hx : 0 < T.dx) (hy : 0 < T.dy)
    (hsx : T.sx = 0) (hsy : T.sy = 0) (r : Nat) (hr : r < ny)
    (hout : (∀ p ∈ pts, p.2 ≤ T.y0 + r * T.dy) ∨ (∀ p ∈ pts, T.y0 + (r + 1) * T.dy ≤ p.2)) :
    ∃ M, maskPoly T ny nx pts = .ok M ∧ M.ny = ny ∧ M.nx = nx ∧ ∀ c : Nat, c < nx → M.get r c = false := by
  have hU := northUp_pos hx hy ny nx
  obtain ⟨-, a2⟩ := maskPoly_spec T ny nx pts hne (by rw [hU]; exact solid_pos hx hy hsx)
  have hs : Safe T pts := Or.inl hsy
  obtain ⟨M, e1, e2, e3, e4⟩ := a2 (by rintro ⟨e, -, h⟩; exact hs.not_raises ny nx e h)
  refine ⟨M, e1, e2, e3, ?_⟩
  intro c hc
  rw [e4 r c hr hc, hU]
  have h0 : total T pts r c = 0 := by
    unfold total
    apply Finset.sum_eq_zero
    intro e _
    have b : (∀ p ∈ pts, (vertexIdx T p).1 ≤ r) ∨ (∀ p ∈ pts, (r : Int) + 1 ≤ (vertexIdx T p).1) := by
      rcases hout with h | h
      · left
        intro p hp
        rw [vertexIdx_unskewed hsx hsy]
        apply rint_le_of_le
        rw [div_le_iff₀ hy]
        have := h p hp
        push_cast
        linarith
      · right
        intro p hp
        rw [vertexIdx_unskewed hsx hsy]
        apply le_rint_of_le
        rw [le_div_iff₀ hy]
        have := h p hp
        push_cast
        linarith
    have m0 := cyc_mem hne e
    have m1 := cyc_mem hne (e + 1)
    unfold contrib
    simp only
    rcases b with b | b
    · have := b _ m0
      have := b _ m1
      split_ifs <;> first | rfl | omega
    · have := b _ m0
      have := b _ m1
      split_ifs <;> first | rfl | omega
  rw [h0]
  simp

/-- Where a rising side crosses a row, in a grid of square cells. -/
theorem crossing_bounds {x0 y0 d xa ya xb yb : ℚ} (hd : 0 < d) (hup : ya < yb) (r : Int)
    (h0 : rint ((ya - y0) / d) ≤ r) (h1 : r < rint ((yb - y0) / d)) :
    min ((xa - x0) / d) ((xb - x0) / d) - 1 / 2 ≤
      ((r - rint ((ya - y0) / d) : Int) : ℚ) * ((xb - xa) / (yb - ya)) + rint ((xa - x0) / d) ∧
    ((r - rint ((ya - y0) / d) : Int) : ℚ) * ((xb - xa) / (yb - ya)) + rint ((xa - x0) / d) ≤
      max ((xa - x0) / d) ((xb - x0) / d) + 1 / 2 := by
  have hyd : 0 < yb - ya := by linarith
  obtain ⟨a1, a2⟩ := abs_le.1 (rint_near ((ya - y0) / d))
  obtain ⟨b1, b2⟩ := abs_le.1 (rint_near ((yb - y0) / d))
  obtain ⟨c1, c2⟩ := abs_le.1 (rint_near ((xa - x0) / d))
  have k0 : (0 : ℚ) ≤ ((r - rint ((ya - y0) / d) : Int) : ℚ) := by exact_mod_cast (by omega)
  have k1 : ((r - rint ((ya - y0) / d) : Int) : ℚ) ≤ (yb - ya) / d := by
    have h2 : (r : ℚ) + 1 ≤ (rint ((yb - y0) / d) : ℚ) := by exact_mod_cast h1
    have h3 : (yb - ya) / d = (yb - y0) / d - (ya - y0) / d := by field_simp; ring
    push_cast
    rw [h3]
    linarith
  generalize ((r - rint ((ya - y0) / d) : Int) : ℚ) = k at k0 k1
  have hsl : k * ((xb - xa) / (yb - ya)) = (k * d / (yb - ya)) * ((xb - x0) / d - (xa - x0) / d) := by
    field_simp; ring
  have t0 : 0 ≤ k * d / (yb - ya) := by positivity
  have t1 : k * d / (yb - ya) ≤ 1 := by
    rw [div_le_one hyd]
    rwa [le_div_iff₀ hd] at k1
  rw [hsl]
  generalize k * d / (yb - ya) = t at t0 t1
  generalize (xa - x0) / d = u at c1 c2 ⊢
  generalize (xb - x0) / d = w
  have hmid : min u w ≤ u + t * (w - u) ∧ u + t * (w - u) ≤ max u w := by
    rcases le_total u w with h | h
    · rw [min_eq_left h, max_eq_right h]
      constructor <;> nlinarith
    · rw [min_eq_right h, max_eq_left h]
      constructor <;> nlinarith
  constructor <;> linarith [hmid.1, hmid.2]

/-- C20, for square cells: columns of cells strictly left of all vertices and columns strictly right of
all vertices are outside.  For oblong cells this fails, see `C20_violated_oblong_cells`. -/
theorem C20_outside_columns_partial (T : Xform) (ny nx : Nat) (pts : List (ℚ × ℚ)) (hne : pts ≠ []) (hy : 0 < T.dy)
    (hsq : T.dx = T.dy) (hsx : T.sx = 0) (hsy : T.sy = 0) (c : Nat) (hc : c < nx)
    (hout : (∀ p ∈ pts, p.1 < T.x0 + c * T.dx) ∨ (∀ p ∈ pts, T.x0 + (c + 1) * T.dx < p.1)) :
    ∃ M, maskPoly T ny nx pts = .ok M ∧ M.ny = ny ∧ M.nx = nx ∧ ∀ r : Nat, r < ny → M.get r c = false := by
  have hx : 0 < T.dx := by rw [hsq]; exact hy
  have hU := northUp_pos hx hy ny nx
  obtain ⟨-, a2⟩ := maskPoly_spec T ny nx pts hne (by rw [hU]; exact solid_pos hx hy hsx)
  have hs : Safe T pts := Or.inl hsy
  obtain ⟨M, e1, e2, e3, e4⟩ := a2 (by rintro ⟨e, -, h⟩; exact hs.not_raises ny nx e h)
  refine ⟨M, e1, e2, e3, ?_⟩
  intro r hr
  rw [e4 r c hr hc, hU]
  have hmono : ∀ p q : ℚ × ℚ, p.2 ≤ q.2 → (vertexIdx T p).1 ≤ (vertexIdx T q).1 := by
    intro p q h
    rw [vertexIdx_unskewed hsx hsy, vertexIdx_unskewed hsx hsy]
    exact rint_mono (div_le_div_of_nonneg_right (by linarith) hy.le)
  have hcol : ∀ p, (vertexIdx T p).2 = rint ((p.1 - T.x0) / T.dy) := by
    intro p; rw [vertexIdx_unskewed hsx hsy, hsq]
  have hrow : ∀ p, (vertexIdx T p).1 = rint ((p.2 - T.y0) / T.dy) := by
    intro p; rw [vertexIdx_unskewed hsx hsy]
  have h0 : total T pts r c = 0 := by
    unfold total
    rcases hout with h | h
    · -- right of everything: the contributions telescope
      have hu : ∀ p ∈ pts, (p.1 - T.x0) / T.dy < c := by
        intro p hp
        rw [div_lt_iff₀ hy, ← hsq]
        linarith [h p hp]
      have key : ∀ p ∈ pts, ∀ q ∈ pts, contrib T p q r c =
          (if (r : Int) < (vertexIdx T q).1 then 1 else 0) - (if (r : Int) < (vertexIdx T p).1 then 1 else 0) := by
        have up : ∀ p ∈ pts, ∀ q ∈ pts, p.2 < q.2 → contrib T p q r c =
            (if (r : Int) < (vertexIdx T q).1 then 1 else 0) - (if (r : Int) < (vertexIdx T p).1 then 1 else 0) := by
          intro p hp q hq hlt
          have hm := hmono p q hlt.le
          unfold contrib
          simp only [if_pos hlt]
          by_cases hc1 : (vertexIdx T p).1 ≤ r ∧ (r : Int) < (vertexIdx T q).1
          · have hb := (crossing_bounds (x0 := T.x0) (y0 := T.y0) (xa := p.1) (xb := q.1) hy hlt r (by rw [← hrow]; exact hc1.1)
              (by rw [← hrow]; exact hc1.2)).2
            rw [← hrow, ← hcol] at hb
            have hmx : max ((p.1 - T.x0) / T.dy) ((q.1 - T.x0) / T.dy) < (c : ℚ) := max_lt (hu p hp) (hu q hq)
            have hj : rint ((((r : Int) - (vertexIdx T p).1 : Int) : ℚ) * ((q.1 - p.1) / (q.2 - p.2)) + (vertexIdx T p).2) ≤ c :=
              rint_le_of_lt (by push_cast at hb ⊢; linarith)
            rw [if_pos ⟨hc1.1, hc1.2, hj⟩, if_pos hc1.2, if_neg (by omega)]
            rfl
          · rw [if_neg (by rintro ⟨h1, h2, -⟩; exact hc1 ⟨h1, h2⟩)]
            by_cases h2 : (r : Int) < (vertexIdx T q).1
            · rw [if_pos h2, if_pos (by omega)]; rfl
            · rw [if_neg h2, if_neg (by omega)]; rfl
        intro p hp q hq
        rcases lt_trichotomy p.2 q.2 with hlt | heq | hlt
        · exact up p hp q hq hlt
        · have : (vertexIdx T p).1 = (vertexIdx T q).1 := le_antisymm (hmono p q heq.le) (hmono q p heq.ge)
          rw [this, sub_self]
          simp [contrib, heq]
        · rw [contrib_swap, up q hq p hp hlt]; ring
      rw [Finset.sum_congr rfl (fun e _ => key _ (cyc_mem hne e) _ (cyc_mem hne (e + 1))),
        Finset.sum_range_sub (fun e => if (r : Int) < (vertexIdx T (cyc pts e)).1 then (1 : Int) else 0)]
      have : cyc pts pts.length = cyc pts 0 := by simpa using cyc_add pts 0
      rw [this, sub_self]
    · have hu : ∀ p ∈ pts, (c : ℚ) + 1 < (p.1 - T.x0) / T.dy := by
        intro p hp
        rw [lt_div_iff₀ hy, ← hsq]
        linarith [h p hp]
      have up : ∀ p ∈ pts, ∀ q ∈ pts, p.2 < q.2 → contrib T p q r c = 0 := by
        intro p hp q hq hlt
        unfold contrib
        simp only [if_pos hlt]
        rw [if_neg]
        rintro ⟨h1, h2, h3⟩
        have hb := (crossing_bounds (x0 := T.x0) (y0 := T.y0) (xa := p.1) (xb := q.1) hy hlt r (by rw [← hrow]; exact h1)
          (by rw [← hrow]; exact h2)).1
        rw [← hrow, ← hcol] at hb
        have hmn : (c : ℚ) + 1 < min ((p.1 - T.x0) / T.dy) ((q.1 - T.x0) / T.dy) := lt_min (hu p hp) (hu q hq)
        have hj : (c : Int) < rint ((((r : Int) - (vertexIdx T p).1 : Int) : ℚ) * ((q.1 - p.1) / (q.2 - p.2)) + (vertexIdx T p).2) :=
          lt_rint_of_lt (by push_cast at hb ⊢; linarith)
        omega
      apply Finset.sum_eq_zero
      intro e _
      rcases lt_trichotomy (cyc pts e).2 (cyc pts (e + 1)).2 with hlt | heq | hlt
      · exact up _ (cyc_mem hne _) _ (cyc_mem hne _) hlt
      · simp [contrib, heq]
      · rw [contrib_swap, up _ (cyc_mem hne _) _ (cyc_mem hne _) hlt]; rfl
  rw [h0]
  simp

/-- One cell of a mask. -/
def maskCell (m : Except Err (Arr Bool)) (r c : Nat) : Except Err Bool := m.map fun M => M.get r c

instance : DecidableEq (Except Err Bool)
  | .ok a, .ok b => if h : a = b then isTrue (by rw [h]) else isFalse (by simpa using h)
  | .error a, .error b => if h : a = b then isTrue (by rw [h]) else isFalse (by simpa using h)
  | .ok _, .error _ => isFalse (by simp)
  | .error _, .ok _ => isFalse (by simp)

/-- C20 is violated for oblong cells: with rows half as high as columns are wide, the triangle (0,0),
(0,2), (2,2) is reported to cover the cell in row 3 and column 2, which is right of all its vertices. -/
theorem C20_violated_oblong_cells :
    maskCell (maskPoly ⟨0, 0, 1, 1 / 2, 0, 0⟩ 4 4 [(0, 0), (0, 2), (2, 2)]) 3 2 = .ok true := by decide +kernel

/-- C20 is violated for polygons with a horizontal side in a grid with slanted rows: listed one way round
the mask is computed, the other way round an exception is raised. -/
theorem C20_violated_slanted_rows :
    maskCell (maskPoly ⟨0, 0, 1, 1, 0, 1⟩ 9 9 [(2, 2), (4, 6), (1, 8), (0, 2)]) 0 0 = .error .zeroDivision ∧
    maskCell (maskPoly ⟨0, 0, 1, 1, 0, 1⟩ 9 9 [(0, 2), (1, 8), (4, 6), (2, 2)]) 0 0 = .ok false := by
  constructor <;> decide +kernel

/-- Non-vacuity of C20: a triangle covers some cells and leaves out others. -/
example : maskCell (maskPoly ⟨0, 0, 1, 1, 0, 0⟩ 5 5 [(0, 0), (0, 4), (4, 4)]) 2 1 = .ok true ∧
    maskCell (maskPoly ⟨0, 0, 1, 1, 0, 0⟩ 5 5 [(0, 0), (0, 4), (4, 4)]) 1 3 = .ok false := by
  constructor <;> decide +kernel

/-! ### C66: masking a grid by polygons -/

/-- The corners of a rectangle, counter-clockwise from the lower left. -/
def corners (xa xb ya yb : ℚ) : List (ℚ × ℚ) := [(xa, ya), (xb, ya), (xb, yb), (xa, yb)]

/-- Spec: a vertex list that runs round the rectangle once, from any corner, in either direction. -/
def RunsRound (pts : List (ℚ × ℚ)) (xa xb ya yb : ℚ) : Prop :=
  ∃ k, pts = (corners xa xb ya yb).rotate k ∨ pts = (corners xa xb ya yb).reverse.rotate k

theorem rint_le_iff {v : ℚ} {r : Nat} (h : v ≠ r + 1 / 2) : rint v ≤ r ↔ v < r + 1 / 2 := by
  constructor
  · intro h1
    by_contra h2
    have h3 : (((r : Int) : ℚ)) + 1 / 2 < v := by
      push_cast
      exact lt_of_le_of_ne (not_lt.1 h2) h.symm
    have := lt_rint_of_lt h3
    omega
  · intro h1
    exact rint_le_of_lt (by push_cast; exact h1)

theorem corners_mask (T : Xform) (ny nx : Nat) (xa xb ya yb : ℚ) (hy : ya < yb) (hdx : 0 < T.dx) (hdy : 0 < T.dy)
    (hsx : T.sx = 0) (hsy : T.sy = 0) :
    ∃ M, maskPoly T ny nx (corners xa xb ya yb) = .ok M ∧ M.ny = ny ∧ M.nx = nx ∧
      ∀ r c : Nat, r < ny → c < nx → T.x0 + (c + 1 / 2) * T.dx ≠ xa → T.x0 + (c + 1 / 2) * T.dx ≠ xb →
        T.y0 + (r + 1 / 2) * T.dy ≠ ya → T.y0 + (r + 1 / 2) * T.dy ≠ yb → xa < xb →
        (M.get r c = true ↔ (xa < T.x0 + (c + 1 / 2) * T.dx ∧ T.x0 + (c + 1 / 2) * T.dx < xb) ∧
          (ya < T.y0 + (r + 1 / 2) * T.dy ∧ T.y0 + (r + 1 / 2) * T.dy < yb)) := by
  have hU := northUp_pos hdx hdy ny nx
  have hne : corners xa xb ya yb ≠ [] := by simp [corners]
  obtain ⟨-, a2⟩ := maskPoly_spec T ny nx (corners xa xb ya yb) hne (by rw [hU]; exact solid_pos hdx hdy hsx)
  have hs : Safe T (corners xa xb ya yb) := Or.inl hsy
  obtain ⟨M, e1, e2, e3, e4⟩ := a2 (by rintro ⟨e, -, h⟩; exact hs.not_raises ny nx e h)
  refine ⟨M, e1, e2, e3, ?_⟩
  intro r c hr hc n1 n2 n3 n4 hx
  rw [e4 r c hr hc, hU]
  have k1 : rint ((xa - T.x0) / T.dx) ≤ c ↔ xa < T.x0 + (c + 1 / 2) * T.dx := by
    rw [rint_le_iff, div_lt_iff₀ hdx]
    · constructor <;> intro h <;> linarith
    · intro h; rw [div_eq_iff hdx.ne'] at h; exact n1 (by linarith)
  have k2 : rint ((xb - T.x0) / T.dx) ≤ c ↔ xb < T.x0 + (c + 1 / 2) * T.dx := by
    rw [rint_le_iff, div_lt_iff₀ hdx]
    · constructor <;> intro h <;> linarith
    · intro h; rw [div_eq_iff hdx.ne'] at h; exact n2 (by linarith)
  have k3 : rint ((ya - T.y0) / T.dy) ≤ r ↔ ya < T.y0 + (r + 1 / 2) * T.dy := by
    rw [rint_le_iff, div_lt_iff₀ hdy]
    · constructor <;> intro h <;> linarith
    · intro h; rw [div_eq_iff hdy.ne'] at h; exact n3 (by linarith)
  have k4 : (r : Int) < rint ((yb - T.y0) / T.dy) ↔ T.y0 + (r + 1 / 2) * T.dy < yb := by
    rw [← not_le, rint_le_iff, div_lt_iff₀ hdy]
    · constructor
      · intro h
        exact lt_of_le_of_ne (by linarith [not_lt.1 h]) n4
      · intro h; apply not_lt.2; linarith
    · intro h; rw [div_eq_iff hdy.ne'] at h; exact n4 (by linarith)
  have t : total T (corners xa xb ya yb) r c =
      (if rint ((ya - T.y0) / T.dy) ≤ r ∧ (r : Int) < rint ((yb - T.y0) / T.dy) ∧ rint ((xb - T.x0) / T.dx) ≤ c then 1 else 0)
      - (if rint ((ya - T.y0) / T.dy) ≤ r ∧ (r : Int) < rint ((yb - T.y0) / T.dy) ∧ rint ((xa - T.x0) / T.dx) ≤ c then 1 else 0) := by
    have c0 : cyc (corners xa xb ya yb) 0 = (xa, ya) := rfl
    have c1 : cyc (corners xa xb ya yb) 1 = (xb, ya) := rfl
    have c2 : cyc (corners xa xb ya yb) 2 = (xb, yb) := rfl
    have c3 : cyc (corners xa xb ya yb) 3 = (xa, yb) := rfl
    have c4 : cyc (corners xa xb ya yb) 4 = (xa, ya) := by simp [cyc, corners]
    unfold total
    have hl : (corners xa xb ya yb).length = 4 := rfl
    rw [hl]
    simp only [Finset.sum_range_succ, Finset.sum_range_zero, zero_add]
    norm_num [c0, c1, c2, c3, c4, contrib, vertexIdx_unskewed hsx hsy, hy, hy.le, not_lt.2 hy.le, rint_int]
    split_ifs <;> rfl
  rw [t]
  simp only [decide_eq_true_eq]
  by_cases hrow : rint ((ya - T.y0) / T.dy) ≤ r ∧ (r : Int) < rint ((yb - T.y0) / T.dy)
  · have hrow' := hrow
    rw [k3, k4] at hrow'
    simp only [hrow, hrow', true_and, and_true, and_self, k1, k2]
    by_cases ha : xa < T.x0 + (c + 1 / 2) * T.dx
    · by_cases hb : xb < T.x0 + (c + 1 / 2) * T.dx
      · simp only [ha, hb, if_true]
        constructor
        · intro h; exact absurd rfl h
        · intro h; linarith [h.2]
      · simp only [ha, hb, if_true, if_false]
        constructor
        · intro _; exact ⟨trivial, lt_of_le_of_ne (not_lt.1 hb) n2⟩
        · intro _; decide
    · have hb : ¬ xb < T.x0 + (c + 1 / 2) * T.dx := fun h => ha (hx.trans h)
      simp only [ha, hb, if_false, false_and, iff_false]
      decide
  · have h1 : ¬ (rint ((ya - T.y0) / T.dy) ≤ r ∧ (r : Int) < rint ((yb - T.y0) / T.dy) ∧ rint ((xb - T.x0) / T.dx) ≤ c) :=
      fun h => hrow ⟨h.1, h.2.1⟩
    have h2 : ¬ (rint ((ya - T.y0) / T.dy) ≤ r ∧ (r : Int) < rint ((yb - T.y0) / T.dy) ∧ rint ((xa - T.x0) / T.dx) ≤ c) :=
      fun h => hrow ⟨h.1, h.2.1⟩
    rw [if_neg h1, if_neg h2]
    rw [k3, k4] at hrow
    constructor
    · intro h; exact absurd rfl h
    · intro h; exact absurd h.2 hrow

/-- The mask of a rectangle is its interior, for cells whose centres are not level with a side. -/
theorem rectangle_mask (T : Xform) (ny nx : Nat) (pts : List (ℚ × ℚ)) (xa xb ya yb : ℚ) (hx : xa < xb) (hy : ya < yb)
    (hdx : 0 < T.dx) (hdy : 0 < T.dy) (hsx : T.sx = 0) (hsy : T.sy = 0) (hp : RunsRound pts xa xb ya yb) :
    ∃ M, maskPoly T ny nx pts = .ok M ∧ M.ny = ny ∧ M.nx = nx ∧
      ∀ r c : Nat, r < ny → c < nx → T.x0 + (c + 1 / 2) * T.dx ≠ xa → T.x0 + (c + 1 / 2) * T.dx ≠ xb →
        T.y0 + (r + 1 / 2) * T.dy ≠ ya → T.y0 + (r + 1 / 2) * T.dy ≠ yb →
        (M.get r c = true ↔ (xa < T.x0 + (c + 1 / 2) * T.dx ∧ T.x0 + (c + 1 / 2) * T.dx < xb) ∧
          (ya < T.y0 + (r + 1 / 2) * T.dy ∧ T.y0 + (r + 1 / 2) * T.dy < yb)) := by
  obtain ⟨M, e1, e2, e3, e4⟩ := corners_mask T ny nx xa xb ya yb hy hdx hdy hsx hsy
  have key : ∀ m, SameMask ny nx m (.ok M) → ∃ M', m = .ok M' ∧ M'.ny = ny ∧ M'.nx = nx ∧
      ∀ r c : Nat, r < ny → c < nx → M'.get r c = M.get r c := by
    intro m hm
    cases m with
    | error e => exact absurd hm (by simp [SameMask])
    | ok M' => exact ⟨M', rfl, hm.1, hm.2.1, fun r c hr hc => hm.2.2.2.2 r c hr hc⟩
  obtain ⟨k, rfl | rfl⟩ := hp
  · have h1 := C20_start_vertex T ny nx (corners xa xb ya yb) k
    rw [e1] at h1
    obtain ⟨M', f1, f2, f3, f4⟩ := key _ h1
    refine ⟨M', f1, f2, f3, ?_⟩
    intro r c hr hc n1 n2 n3 n4
    rw [f4 r c hr hc]
    exact e4 r c hr hc n1 n2 n3 n4 hx
  · have h1 := C20_start_vertex T ny nx (corners xa xb ya yb).reverse k
    have h2 := C20_reversal_partial T ny nx (corners xa xb ya yb) (Or.inl hsy)
    rw [e1] at h2
    obtain ⟨M1, f1, f2, f3, f4⟩ := key _ h2
    rw [f1] at h1
    have key' : ∀ m, SameMask ny nx m (.ok M1) → ∃ M', m = .ok M' ∧ M'.ny = ny ∧ M'.nx = nx ∧
        ∀ r c : Nat, r < ny → c < nx → M'.get r c = M1.get r c := by
      intro m hm
      cases m with
      | error e => exact absurd hm (by simp [SameMask])
      | ok M' => exact ⟨M', rfl, hm.1, hm.2.1, fun r c hr hc => hm.2.2.2.2 r c hr hc⟩
    obtain ⟨M', g1, g2, g3, g4⟩ := key' _ h1
    refine ⟨M', g1, g2, g3, ?_⟩
    intro r c hr hc n1 n2 n3 n4
    rw [g4 r c hr hc, f4 r c hr hc]
    exact e4 r c hr hc n1 n2 n3 n4 hx

/-- Spec: the polygon's mask covers cell `(r, c)`. -/
def CoversCell (T : Xform) (ny nx : Nat) (pts : List (ℚ × ℚ)) (r c : Nat) : Prop :=
  maskCell (maskPoly T ny nx pts) r c = .ok true

theorem maskCell_ok {M : Arr Bool} {m : Except Err (Arr Bool)} (h : m = .ok M) (r c : Nat) :
    maskCell m r c = .ok (M.get r c) := by rw [h]; rfl

theorem unionMask_spec (T : Xform) (ny nx : Nat) : ∀ (polys : List (List (ℚ × ℚ))) (m : Arr Bool),
    (∀ p ∈ polys, ∃ M, maskPoly T ny nx p = .ok M) → m.ny = ny → m.nx = nx →
    ∃ M, unionMask T ny nx polys m = .ok M ∧ M.ny = ny ∧ M.nx = nx ∧
      ∀ r c : Nat, M.get r c = true ↔ m.get r c = true ∨ ∃ p ∈ polys, CoversCell T ny nx p r c
  | [], m, _, h1, h2 => ⟨m, rfl, h1, h2, by simp⟩
  | p :: ps, m, h, h1, h2 => by
    obtain ⟨M1, e1⟩ := h p (by simp)
    obtain ⟨M, f1, f2, f3, f4⟩ := unionMask_spec T ny nx ps ⟨ny, nx, fun r c => m.get r c || M1.get r c⟩
      (fun q hq => h q (by simp [hq])) rfl rfl
    refine ⟨M, ?_, f2, f3, ?_⟩
    · simp only [unionMask, e1]; exact f1
    · intro r c
      rw [f4 r c]
      simp only [Bool.or_eq_true, List.mem_cons, exists_eq_or_imp, CoversCell, maskCell_ok e1, Except.ok.injEq]
      tauto

theorem unionMask_error (T : Xform) (ny nx : Nat) {p : List (ℚ × ℚ)} {e : Err} (he : maskPoly T ny nx p = .error e) :
    ∀ (polys : List (List (ℚ × ℚ))) (m : Arr Bool), p ∈ polys → ∃ e', unionMask T ny nx polys m = .error e'
  | [], _, h => by simp at h
  | q :: ps, m, h => by
    unfold unionMask
    cases hq : maskPoly T ny nx q with
    | error e' => exact ⟨e', rfl⟩
    | ok M =>
      rcases List.mem_cons.1 h with h | h
      · rw [h, hq] at he; cases he
      · exact unionMask_error T ny nx he ps _ h

/-- C66 (every polygon list and every grid): masking keeps the position, the no-data value and the shape of
the grid; a pixel covered by one of the polygons keeps its value in all bands, the others become no-data. -/
theorem C66_keeps_or_erases {g : RGrid α} {H W : Nat} {Ps : List (Int → Int → α)} (hg : g.Holds H W Ps)
    (zero garb : α) (polys : List (List (ℚ × ℚ))) (hok : ∀ p ∈ polys, ∃ M, maskPoly g.t H W p = .ok M) :
    ∃ g' Ps', g.maskByPoly zero garb polys = .ok g' ∧ g'.t = g.t ∧ g'.nodata = g.nodata ∧ g'.Holds H W Ps' ∧
      Ps'.length = Ps.length ∧ ∀ (k : Nat) P P', Ps[k]? = some P → Ps'[k]? = some P' → ∀ y x : Nat, y < H → x < W →
        ((∃ p ∈ polys, CoversCell g.t H W p y x) → P' y x = P y x) ∧
        (¬ (∃ p ∈ polys, CoversCell g.t H W p y x) → P' y x = g.nodata) := by
  have hsz := hg.size
  obtain ⟨hB, hne⟩ := hg
  obtain ⟨M, m1, m2, m3, m4⟩ := unionMask_spec g.t H W polys ⟨H, W, fun _ _ => false⟩ hok rfl rfl
  obtain ⟨A, e, hs, hv⟩ := getAll hB hne
  have hpos : 0 < g.bands.length := List.length_pos_of_ne_nil hne
  have hlen : Ps.length = g.bands.length := hB.1.symm
  obtain ⟨g', Ps', e1, e2, e3, e4, e5, e6⟩ := fromValues_spec zero garb g.t g.nodata (whereMask M A g.nodata) _ _ _ hpos hs
    (fun y x k => if M.get y x then ((Ps[k]?).map fun P => P y x).getD garb else g.nodata)
    (by
      intro y x k hy hx hk
      have hk' : k < Ps.length := by omega
      have := hv y x k Ps[k] hy hx (by simp [hk'])
      simp only [whereMask, this, List.getElem?_eq_getElem hk', Option.map_some, Option.getD_some]
      split_ifs <;> rfl)
  refine ⟨g', Ps', ?_, e2, e3, e4, by omega, ?_⟩
  · unfold RGrid.maskByPoly
    rw [hsz]
    simp only [m1, e]
    exact e1
  · intro k P P' hP hP' y x hy hx
    have h1 := e6 k P' hP' y x hy hx
    rw [hP] at h1
    simp only [Option.map_some, Option.getD_some] at h1
    have h2 := m4 y x
    simp only [Bool.false_eq_true, false_or] at h2
    constructor
    · intro hc; rw [h1, if_pos (h2.2 hc)]
    · intro hc; rw [h1, if_neg (fun h => hc (h2.1 h))]

/-- C66: if the mask of one of the polygons cannot be computed, masking raises. -/
theorem C66_raises {g : RGrid α} {H W : Nat} {Ps : List (Int → Int → α)} (hg : g.Holds H W Ps)
    (zero garb : α) (polys : List (List (ℚ × ℚ))) (p : List (ℚ × ℚ)) (hp : p ∈ polys) (e : Err)
    (he : maskPoly g.t H W p = .error e) : ∃ e', g.maskByPoly zero garb polys = .error e' := by
  obtain ⟨e', h⟩ := unionMask_error g.t H W he polys ⟨H, W, fun _ _ => false⟩ hp
  refine ⟨e', ?_⟩
  unfold RGrid.maskByPoly
  rw [hg.size]
  simp only [h]

/-- A rectangle, with its sides in order. -/
structure Rect where
  (xa xb ya yb : ℚ)
  hx : xa < xb
  hy : ya < yb

/-- Spec: the point is in the open rectangle. -/
def Rect.Has (R : Rect) (p : ℚ × ℚ) : Prop := (R.xa < p.1 ∧ p.1 < R.xb) ∧ (R.ya < p.2 ∧ p.2 < R.yb)

/-- Spec: the point is level with none of the four sides. -/
def Rect.Off (R : Rect) (p : ℚ × ℚ) : Prop := p.1 ≠ R.xa ∧ p.1 ≠ R.xb ∧ p.2 ≠ R.ya ∧ p.2 ≠ R.yb

/-- C66, for rectangles on a grid with positive spacing and no skew: masking by polygons that run round
rectangles in either direction, from any corner, keeps exactly the pixels whose centres are in one of the
rectangles.  Missing: polygons of other shapes, where the result is approximate; grids with negative
spacing, oblong cells or skew (see `C66_violated_…`, `C20_violated_…`); holes, which are ignored. -/
theorem C66_rectangles_partial {g : RGrid α} {H W : Nat} {Ps : List (Int → Int → α)} (hg : g.Holds H W Ps)
    (zero garb : α) (hdx : 0 < g.t.dx) (hdy : 0 < g.t.dy) (hsx : g.t.sx = 0) (hsy : g.t.sy = 0)
    (rs : List (Rect × List (ℚ × ℚ))) (hrs : ∀ q ∈ rs, RunsRound q.2 q.1.xa q.1.xb q.1.ya q.1.yb) :
    ∃ g' Ps', g.maskByPoly zero garb (rs.map Prod.snd) = .ok g' ∧ g'.t = g.t ∧ g'.nodata = g.nodata ∧
      g'.Holds H W Ps' ∧ Ps'.length = Ps.length ∧
      ∀ (k : Nat) P P', Ps[k]? = some P → Ps'[k]? = some P' → ∀ y x : Nat, y < H → x < W →
        let ctr : ℚ × ℚ := (g.t.x0 + (x + 1 / 2) * g.t.dx, g.t.y0 + (y + 1 / 2) * g.t.dy)
        (∀ q ∈ rs, q.1.Off ctr) →
        ((∃ q ∈ rs, q.1.Has ctr) → P' y x = P y x) ∧ (¬ (∃ q ∈ rs, q.1.Has ctr) → P' y x = g.nodata) := by
  have hm : ∀ q ∈ rs, _ := fun q hq =>
    rectangle_mask g.t H W q.2 q.1.xa q.1.xb q.1.ya q.1.yb q.1.hx q.1.hy hdx hdy hsx hsy (hrs q hq)
  obtain ⟨g', Ps', e1, e2, e3, e4, e5, e6⟩ := C66_keeps_or_erases hg zero garb (rs.map Prod.snd) (by
    intro p hp
    obtain ⟨q, hq, rfl⟩ := List.mem_map.1 hp
    obtain ⟨M, h, -⟩ := hm q hq
    exact ⟨M, h⟩)
  refine ⟨g', Ps', e1, e2, e3, e4, e5, ?_⟩
  intro k P P' hP hP' y x hy hx ctr hoff
  have hiff : (∃ p ∈ rs.map Prod.snd, CoversCell g.t H W p y x) ↔ ∃ q ∈ rs, q.1.Has ctr := by
    constructor
    · rintro ⟨p, hp, hc⟩
      obtain ⟨q, hq, rfl⟩ := List.mem_map.1 hp
      obtain ⟨M, h, -, -, h4⟩ := hm q hq
      obtain ⟨o1, o2, o3, o4⟩ := hoff q hq
      unfold CoversCell at hc
      rw [maskCell_ok h, Except.ok.injEq] at hc
      exact ⟨q, hq, (h4 y x hy hx o1 o2 o3 o4).1 hc⟩
    · rintro ⟨q, hq, hc⟩
      obtain ⟨M, h, -, -, h4⟩ := hm q hq
      obtain ⟨o1, o2, o3, o4⟩ := hoff q hq
      refine ⟨q.2, List.mem_map.2 ⟨q, hq, rfl⟩, ?_⟩
      unfold CoversCell
      rw [maskCell_ok h, Except.ok.injEq]
      exact (h4 y x hy hx o1 o2 o3 o4).2 hc
  rw [← hiff]
  exact e6 k P P' hP hP' y x hy hx

/-- C66 is violated when the rows run south: in a grid of two rows, with its first row from y = 2 down to
y = 1, the square from y = 1.1 to y = 1.9 is reported to cover the second row, not the first. -/
theorem C66_violated_negative_spacing :
    CoversCell ⟨0, 2, 1, -1, 0, 0⟩ 2 1 (corners (1 / 10) (9 / 10) (11 / 10) (19 / 10)) 1 0 ∧
    ¬ CoversCell ⟨0, 2, 1, -1, 0, 0⟩ 2 1 (corners (1 / 10) (9 / 10) (11 / 10) (19 / 10)) 0 0 := by
  unfold CoversCell
  constructor <;> decide +kernel

/-- C66 is violated for triangles: the centre of the cell in row 3 and column 2 is outside the triangle, and
to the right of all its vertices, yet the cell is reported as covered. -/
theorem C66_violated_oblong_cells : CoversCell ⟨0, 0, 1, 1 / 2, 0, 0⟩ 4 4 [(0, 0), (0, 2), (2, 2)] 3 2 :=
  C20_violated_oblong_cells

/-- Non-vacuity of C66: a one-band grid of 3 × 3 pixels, masked by a rectangle listed clockwise. -/
def exMask : Except Err (RGrid Int) :=
  match fromValues (0 : Int) 0 ⟨0, 0, 1, 1, 0, 0⟩ (-1) ⟨[3, 3], fun | [r, c] => some (10 * r + c) | _ => none⟩ with
  | .error e => .error e
  | .ok g => g.maskByPoly 0 0 [[(1 / 5, 1 / 5), (1 / 5, 9 / 5), (14 / 5, 9 / 5), (14 / 5, 1 / 5)]]

def peeks (g : Except Err (RGrid Int)) (cells : List (Int × Int)) : List (Option Int) :=
  match g with
  | .error _ => []
  | .ok g => cells.map fun p => g.peek p.1 p.2

example : peeks exMask [(0, 0), (1, 2), (2, 1), (2, 2)] = [some 0, some 12, some (-1), some (-1)] := by decide +kernel

example : RunsRound [(1 / 5, 1 / 5), (1 / 5, 9 / 5), (14 / 5, 9 / 5), (14 / 5, 1 / 5)] (1 / 5) (14 / 5) (1 / 5) (9 / 5) :=
  ⟨3, Or.inr (by decide +kernel)⟩

/-- The grid that covers the same box with rows to the north and columns to the east. -/
def northBox (T : Xform) (ny nx : Nat) : Xform :=
  ⟨min T.x0 (T.x0 + nx * T.dx), min T.y0 (T.y0 + ny * T.dy), |T.dx|, |T.dy|, T.sx, T.sy⟩

/-- **C66, spacing of either sign**: the mask is that of the grid over the same box whose rows run north and whose
columns run east. So the cells are those of the mirrored grid (see `C66_violated_negative_spacing`). -/
theorem C66_same_box_partial (T : Xform) (ny nx : Nat) (pts : List (ℚ × ℚ)) :
    maskPoly T ny nx pts = maskPoly (northBox T ny nx) ny nx pts := by
  have h : northUp T ny nx = northUp (northBox T ny nx) ny nx := by
    have a1 : ¬ |T.dx| < 0 := not_lt.2 (abs_nonneg _)
    have a2 : ¬ |T.dy| < 0 := not_lt.2 (abs_nonneg _)
    have b1 : (if T.dx < 0 then T.x0 + nx * T.dx else T.x0) = min T.x0 (T.x0 + nx * T.dx) := by
      have : (0 : ℚ) ≤ nx := Nat.cast_nonneg _
      split_ifs with h
      · rw [min_eq_right]; nlinarith
      · rw [min_eq_left]; nlinarith
    have b2 : (if T.dy < 0 then T.y0 + ny * T.dy else T.y0) = min T.y0 (T.y0 + ny * T.dy) := by
      have : (0 : ℚ) ≤ ny := Nat.cast_nonneg _
      split_ifs with h
      · rw [min_eq_right]; nlinarith
      · rw [min_eq_left]; nlinarith
    have c1 : (if T.dx < 0 then -T.dx else T.dx) = |T.dx| := by
      split_ifs with h
      · rw [abs_of_neg h]
      · rw [abs_of_nonneg (not_lt.1 h)]
    have c2 : (if T.dy < 0 then -T.dy else T.dy) = |T.dy| := by
      split_ifs with h
      · rw [abs_of_neg h]
      · rw [abs_of_nonneg (not_lt.1 h)]
    have e : northUp T ny nx = northBox T ny nx := by
      unfold northUp northBox
      rw [b1, b2, c1, c2]
    have e' : northUp (northBox T ny nx) ny nx = northBox T ny nx := by
      unfold northUp
      rw [if_neg (show ¬ (northBox T ny nx).dx < 0 from a1), if_neg (show ¬ (northBox T ny nx).dx < 0 from a1),
        if_neg (show ¬ (northBox T ny nx).dy < 0 from a2), if_neg (show ¬ (northBox T ny nx).dy < 0 from a2)]
    rw [e, e']
  cases pts with
  | nil => rfl
  | cons p ps => rw [maskPoly, maskPoly, h]

/-- A square on the western half of a grid whose columns run west: the mask is that of the grid listed eastwards. -/
example : northBox ⟨4, 0, -1, 1, 0, 0⟩ 2 4 = ⟨0, 0, 1, 1, 0, 0⟩ ∧
    maskCell (maskPoly ⟨4, 0, -1, 1, 0, 0⟩ 2 4 (corners 0 2 0 2)) 1 1 = .ok true ∧
    maskCell (maskPoly ⟨4, 0, -1, 1, 0, 0⟩ 2 4 (corners 0 2 0 2)) 1 2 = .ok false := by
  refine ⟨?_, ?_, ?_⟩ <;> decide +kernel

end Karta.Grid
