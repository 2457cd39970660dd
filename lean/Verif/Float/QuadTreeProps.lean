import Verif.Float.QuadTree
import Mathlib.Tactic.LinearCombination
import Mathlib.Data.Nat.Sqrt

/-!
Property C145: the spatial index of a Multipoint in double precision.
-/

namespace Karta.Float.QT
open Karta Karta.Vec Karta.Vec.QT Karta.Float

/-! ### Specification -/

/-- A number of double precision. -/
def IsDouble (x : ℚ) : Prop := ∃ m k : ℤ, |m| ≤ 2 ^ 53 ∧ x = m * 2 ^ k

/-- The two numbers are equal or at least `δ` and at most `W` apart. -/
def Apart (δ W : ℚ) (x y : ℚ) : Prop := (x = y ∨ δ ≤ |x - y|) ∧ |x - y| ≤ W

/-- The coordinates of the points are doubles of at most `B`; those of any two points are equal, or at least `δ` and at most `W`
apart; and `δ` is not too small for 53 bits. -/
structure Spaced (δ W B : ℚ) (pts : List Pt) : Prop where
  pos : 0 < δ
  double : ∀ p ∈ pts, IsDouble p.x ∧ IsDouble p.y
  size : ∀ p ∈ pts, |p.x| ≤ B ∧ |p.y| ≤ B
  apart : ∀ p ∈ pts, ∀ q ∈ pts, Apart δ W p.x q.x ∧ Apart δ W p.y q.y
  room : W * B ≤ 2 ^ 46 * δ ^ 2

/-! ### Dividing an interval -/

/-- An interval at depth `s`; `ε` bounds the error of a midpoint. -/
def Dim (δ W B ε : ℚ) (s : Nat) (lo hi : ℚ) : Prop :=
  |lo| ≤ B ∧ |hi| ≤ B ∧ hi - lo ≤ W / 2 ^ s + 2 * ε ∧ ((lo = hi ∧ IsDouble lo) ∨ δ / 2 ^ s - 2 * ε ≤ hi - lo)

variable {R : Rounding}

theorem midF_err {B a b : ℚ} (ha : |a| ≤ B) (hb : |b| ≤ B) : |midF R a b - (a + b) / 2| ≤ 1 / 2 ^ 51 * B := by
  have e1 := R.err (a + b)
  have e2 := R.err (1 / 2 * R.fl (a + b))
  have h1 : |a + b| ≤ 2 * B := le_trans (abs_add_le a b) (by linarith)
  have hB : 0 ≤ B := le_trans (abs_nonneg a) ha
  have h2 : |R.fl (a + b)| ≤ 4 * B := by
    have : |R.fl (a + b)| ≤ |R.fl (a + b) - (a + b)| + |a + b| := by
      have := abs_add_le (R.fl (a + b) - (a + b)) (a + b)
      rwa [sub_add_cancel] at this
    have : (1 : ℚ) / 2 ^ 53 * |a + b| ≤ |a + b| := by
      have := abs_nonneg (a + b)
      nlinarith [show (1 : ℚ) / 2 ^ 53 ≤ 1 by norm_num]
    linarith
  have h3 : |1 / 2 * R.fl (a + b)| ≤ 2 * B := by rw [abs_mul, abs_of_pos (by norm_num)]; linarith
  have e3 : |R.fl (a + b) - (a + b)| ≤ 1 / 2 ^ 53 * (2 * B) := le_trans e1 (by gcongr)
  have e4 : |midF R a b - 1 / 2 * R.fl (a + b)| ≤ 1 / 2 ^ 53 * (2 * B) := le_trans e2 (by gcongr)
  rw [abs_le] at e3 e4 ⊢
  norm_num at e3 e4 ⊢
  constructor <;> linarith [e3.1, e3.2, e4.1, e4.2]

theorem midF_self {a : ℚ} (h : IsDouble a) : midF R a a = a := by
  obtain ⟨m, k, hm, rfl⟩ := h
  unfold midF
  have e : (m : ℚ) * 2 ^ k + m * 2 ^ k = m * 2 ^ (k + 1) := by rw [zpow_add₀ (by norm_num)]; ring
  rw [e, R.exact m (k + 1) hm]
  have e2 : (1 : ℚ) / 2 * (m * 2 ^ (k + 1)) = m * 2 ^ k := by rw [zpow_add₀ (by norm_num)]; ring
  rw [e2, R.exact m k hm]

theorem dim_step {δ W B : ℚ} {s : Nat} {lo hi : ℚ} (h : Dim δ W B (1 / 2 ^ 51 * B) s lo hi)
    (hu : 16 * (1 / 2 ^ 51 * B) ≤ δ / 2 ^ s) (hpos : 0 < δ / 2 ^ s) :
    Dim δ W B (1 / 2 ^ 51 * B) (s + 1) lo (midF R lo hi) ∧ Dim δ W B (1 / 2 ^ 51 * B) (s + 1) (midF R lo hi) hi ∧
    (lo < midF R lo hi → midF R lo (midF R lo hi) < midF R lo hi) ∧ ¬ midF R (midF R lo hi) hi < midF R lo hi := by
  obtain ⟨h1, h2, h3, h4⟩ := h
  have hB : 0 ≤ B := le_trans (abs_nonneg lo) h1
  have eδ : δ / 2 ^ (s + 1) = δ / 2 ^ s / 2 := by rw [pow_succ]; field_simp
  have eW : W / 2 ^ (s + 1) = W / 2 ^ s / 2 := by rw [pow_succ]; field_simp
  generalize hε : 1 / 2 ^ 51 * B = ε at *
  have hε0 : 0 ≤ ε := by rw [← hε]; positivity
  rcases h4 with ⟨rfl, hd⟩ | h4
  · rw [midF_self hd, midF_self hd]
    have hdim : Dim δ W B ε (s + 1) lo lo := by
      refine ⟨h1, h1, ?_, Or.inl ⟨rfl, hd⟩⟩
      rw [eW]; linarith
    exact ⟨hdim, hdim, fun h => absurd h (lt_irrefl _), lt_irrefl _⟩
  · have e1 := midF_err (R := R) h1 h2
    rw [hε, abs_le] at e1
    set m := midF R lo hi with hm
    have hlm : lo < m := by linarith [e1.1]
    have hmh : m < hi := by linarith [e1.2]
    have hmB : |m| ≤ B := by
      rw [abs_le] at h1 h2 ⊢
      constructor <;> linarith [h1.1, h2.2]
    have e2 := midF_err (R := R) h1 hmB
    have e3 := midF_err (R := R) hmB h2
    rw [hε, abs_le] at e2 e3
    refine ⟨⟨h1, hmB, ?_, Or.inr ?_⟩, ⟨hmB, h2, ?_, Or.inr ?_⟩, fun _ => ?_, ?_⟩
    · rw [eW]; linarith [e1.2]
    · rw [eδ]; linarith [e1.1]
    · rw [eW]; linarith [e1.1]
    · rw [eδ]; linarith [e1.2]
    · linarith [e2.2, e1.1]
    · linarith [e3.1, e1.2]

/-- Boxes of the index at depth `s`. -/
def Wide (δ W B : ℚ) (s : Nat) (b : Box) : Prop :=
  Dim δ W B (1 / 2 ^ 51 * B) s b.xmin b.xmax ∧ Dim δ W B (1 / 2 ^ 51 * B) s b.ymin b.ymax

theorem spaced_divides {δ W B : ℚ} {pts : List Pt} (h : Spaced δ W B pts) {N : Nat} (hN : 2 * W < δ * 2 ^ N) :
    Divides R N (fun p => p ∈ pts) (Wide δ W B) := by
  intro s bb a b hw ha hb hne hca hcb
  have hδ := h.pos
  obtain ⟨wx, wy⟩ := hw
  have hB : 0 ≤ B := le_trans (abs_nonneg _) wx.1
  have p2 : (0 : ℚ) < 2 ^ s := by positivity
  obtain ⟨⟨ax1, ax2⟩, ay1, ay2⟩ := h.apart a ha b hb
  -- one of the extents is at least `δ`
  have hext : δ ≤ W / 2 ^ s + 2 * (1 / 2 ^ 51 * B) ∧ δ ≤ W := by
    obtain ⟨a1, a2, a3, a4⟩ := hca
    obtain ⟨b1, b2, b3, b4⟩ := hcb
    have h1 : |a.x - b.x| ≤ bb.xmax - bb.xmin := by rw [abs_le]; constructor <;> linarith
    have h2 : |a.y - b.y| ≤ bb.ymax - bb.ymin := by rw [abs_le]; constructor <;> linarith
    by_cases hx : a.x = b.x
    · have hy : a.y ≠ b.y := by
        intro hy; apply hne
        cases a; cases b; simp_all
      have := ay1.resolve_left hy
      exact ⟨by linarith [wy.2.2.1], by linarith⟩
    · have := ax1.resolve_left hx
      exact ⟨by linarith [wx.2.2.1], by linarith⟩
  obtain ⟨hext, hWδ⟩ := hext
  have hroom := h.room
  set ε := 1 / 2 ^ 51 * B with hε
  have hε0 : 0 ≤ ε := by rw [hε]; positivity
  have hWε : 32 * (W * ε) ≤ δ ^ 2 := by
    have : 32 * (W * ε) = 1 / 2 ^ 46 * (W * B) := by rw [hε]; ring
    rw [this]
    have := mul_le_mul_of_nonneg_left hroom (show (0 : ℚ) ≤ 1 / 2 ^ 46 by norm_num)
    refine le_trans this (le_of_eq ?_)
    ring
  have hW : 0 < W := lt_of_lt_of_le hδ hWδ
  have hδε : 32 * ε ≤ δ := by
    have h1 : W * (32 * ε) ≤ W * δ := by nlinarith
    exact le_of_mul_le_mul_left h1 hW
  have hhalf : δ / 2 ≤ W / 2 ^ s := by linarith
  have hs2 : δ * 2 ^ s ≤ 2 * W := by
    rw [le_div_iff₀ p2] at hhalf
    linarith
  have hu : 16 * ε ≤ δ / 2 ^ s := by
    rw [le_div_iff₀ p2]
    have : 16 * ε * 2 ^ s * δ ≤ δ * δ := by nlinarith
    have h2 : δ * (16 * ε * 2 ^ s) ≤ δ * δ := by linarith
    exact le_of_mul_le_mul_left h2 hδ
  have hpos : 0 < δ / 2 ^ s := by positivity
  obtain ⟨x1, x2, x3, x4⟩ := dim_step (R := R) wx hu hpos
  obtain ⟨y1, y2, y3, y4⟩ := dim_step (R := R) wy hu hpos
  refine ⟨?_, ?_, ?_⟩
  · by_contra hc
    have : (2 : ℚ) ^ N ≤ 2 ^ s := pow_le_pow_right₀ (by norm_num) (not_lt.1 hc)
    nlinarith
  · intro p _ hp
    obtain ⟨p1, p2, p3, p4⟩ := hp
    by_cases hx : p.x < midF R bb.xmin bb.xmax <;> by_cases hy : p.y < midF R bb.ymin bb.ymax
    · have e : quadrantF R bb p = .ll := by simp [quadrantF, midPt, hx, hy]
      rw [e]
      unfold quadrantF
      rw [if_pos, if_pos]
      · exact y3 (by linarith)
      · exact x3 (by linarith)
    · have e : quadrantF R bb p = .ul := by simp [quadrantF, midPt, hx, hy]
      rw [e]
      unfold quadrantF
      rw [if_pos, if_neg]
      · exact y4
      · exact x3 (by linarith)
    · have e : quadrantF R bb p = .lr := by simp [quadrantF, midPt, hx, hy]
      rw [e]
      unfold quadrantF
      rw [if_neg, if_pos]
      · exact y3 (by linarith)
      · exact x4
    · have e : quadrantF R bb p = .ur := by simp [quadrantF, midPt, hx, hy]
      rw [e]
      unfold quadrantF
      rw [if_neg, if_neg]
      · exact y4
      · exact x4
  · intro q
    cases q
    · exact ⟨x1, y2⟩
    · exact ⟨x2, y2⟩
    · exact ⟨x1, y1⟩
    · exact ⟨x2, y1⟩

theorem root_dim {δ W B : ℚ} {pts : List Pt} (h : Spaced δ W B pts) {f : Pt → ℚ} {lo hi : ℚ}
    (hd : ∀ p ∈ pts, IsDouble (f p)) (hs : ∀ p ∈ pts, |f p| ≤ B) (ha : ∀ p ∈ pts, ∀ q ∈ pts, Apart δ W (f p) (f q))
    (hle : lo ≤ hi) (h1 : ∃ p ∈ pts, f p = lo) (h2 : ∃ p ∈ pts, f p = hi) : Dim δ W B (1 / 2 ^ 51 * B) 0 lo hi := by
  obtain ⟨p, hp, rfl⟩ := h1
  obtain ⟨q, hq, rfl⟩ := h2
  have hB : 0 ≤ B := le_trans (abs_nonneg _) (hs p hp)
  have hε : (0 : ℚ) ≤ 1 / 2 ^ 51 * B := by positivity
  obtain ⟨a1, a2⟩ := ha q hq p hp
  rw [abs_of_nonneg (by linarith)] at a1 a2
  refine ⟨hs p hp, hs q hq, by rw [pow_zero, div_one]; linarith, ?_⟩
  rcases a1 with e | e
  · exact Or.inl ⟨e.symm, hd p hp⟩
  · right; rw [pow_zero, div_one]; linarith

theorem root_wide {δ W B : ℚ} {pts : List Pt} (h : Spaced δ W B pts) {b : Box} (hb : bbox pts = some b) : Wide δ W B 0 b := by
  have hc := bbox_contains hb
  match pts, hb with
  | p :: ps, hb =>
    simp only [bbox, Option.some.injEq] at hb
    obtain ⟨_, _, h6, h7, h8, h9⟩ := foldl_bbox ps ⟨p.x, p.y, p.x, p.y⟩
    rw [hb] at h6 h7 h8 h9
    have hp := hc p (by simp)
    have get : ∀ (f : Pt → ℚ) (v : ℚ), (v = f p ∨ ∃ r ∈ ps, f r = v) → ∃ r ∈ p :: ps, f r = v := by
      rintro f v (rfl | ⟨r, hr, e⟩)
      · exact ⟨p, by simp, rfl⟩
      · exact ⟨r, by simp [hr], e⟩
    refine ⟨root_dim h (f := fun p => p.x) (fun r hr => (h.double r hr).1) (fun r hr => (h.size r hr).1)
        (fun r hr t ht => (h.apart r hr t ht).1) (le_trans hp.1 hp.2.1) (get (fun p => p.x) _ h6) (get (fun p => p.x) _ h7),
      root_dim h (f := fun p => p.y) (fun r hr => (h.double r hr).2) (fun r hr => (h.size r hr).2)
        (fun r hr t ht => (h.apart r hr t ht).2) (le_trans hp.2.2.1 hp.2.2.2) (get (fun p => p.y) _ h8) (get (fun p => p.y) _ h9)⟩

/-! ### C145 -/

/-- C145, construction and search: if the coordinates of any two points are equal or far enough apart for their size (at least `δ`, where
`W` is the extent of the points, `B` their largest coordinate and `W * B ≤ 2 ^ 46 * δ ^ 2`), then the index is built in finitely many
steps and searching any box returns exactly the indices of the points strictly inside it, each exactly once, although the midpoints of
boxes are rounded.

Missing for the full claim: points closer together, for which it fails (below). -/
theorem C145_index_partial (R : Rounding) {cap : Nat} (hcap : 2 ≤ cap) {δ W B : ℚ} {pts : List Pt} (h : Spaced δ W B pts) :
    ∃ s n, (∀ fuel, n ≤ fuel → buildF R cap fuel pts = some s) ∧
      ∀ q : Box, (search s q).Nodup ∧ ∀ i, i ∈ search s q ↔ ∃ p, pts[i]? = some p ∧ q.Inside p := by
  obtain ⟨N, hN⟩ : ∃ N : Nat, 2 * W < δ * 2 ^ N := by
    obtain ⟨n, hn⟩ := pow_unbounded_of_one_lt (2 * W / δ) (one_lt_two (α := ℚ))
    rw [div_lt_iff₀ h.pos] at hn
    exact ⟨n, by linarith⟩
  cases hb : bbox pts with
  | none =>
    have : pts = [] := by
      cases pts with
      | nil => rfl
      | cons _ _ => simp [bbox] at hb
    subst this
    refine ⟨⟨.leaf ⟨0, 0, 0, 0⟩ [], fun _ => []⟩, 0, fun fuel _ => by rw [buildF, hb, Option.getD_none, buildLoopF], fun q => ?_⟩
    have e : searchLoop q [QT.Tree.leaf ⟨0, 0, 0, 0⟩ []] = [] := by
      rw [searchLoop_eq (cap := 1) q _ (by
        intro t ht
        rw [List.mem_singleton.1 ht]
        exact ⟨⟨0, 0, 0, 0⟩, rfl, by simp, by simp, by simp⟩)]
      rfl
    unfold search
    rw [e]
    refine ⟨List.nodup_nil, fun i => ?_⟩
    rw [List.reverse_nil, List.flatMap_nil]
    constructor
    · intro hi; exact absurd hi List.not_mem_nil
    · rintro ⟨p, hp, _⟩
      rw [List.getElem?_nil] at hp
      cases hp
  | some b =>
    have hI : StateInvF R (fun p => p ∈ pts) (Wide δ W B) cap b pts 0 ⟨.leaf b [], fun _ => []⟩ :=
      ⟨⟨rfl, root_wide h hb, by simp, by simp; omega, by simp⟩, by simp [QT.Tree.pts], by simp [QT.Tree.pts], by simp⟩
    obtain ⟨s, e, hs⟩ := buildLoopF_spec (spaced_divides h hN) hcap pts (fun p hp => ⟨hp, bbox_contains hb p hp⟩) pts 0 rfl _ hI
    refine ⟨s, N, fun fuel hf => ?_, searchF_exact hs⟩
    unfold buildF
    rw [hb, Option.getD_some]
    induction hf with
    | refl => exact e
    | step _ ih => exact buildLoopF_mono _ _ _ _ _ _ ih

/-- Coordinates in whole units (at most `2 ^ 22` of them) are far enough apart. -/
theorem spaced_units {k : ℤ} {pts : List Pt} (h : ∀ p ∈ pts, InUnits k (2 ^ 22) p.x ∧ InUnits k (2 ^ 22) p.y) :
    Spaced (2 ^ k) (2 ^ 23 * 2 ^ k) (2 ^ 22 * 2 ^ k) pts := by
  have hk := two_pow_pos k
  have one : ∀ x y : ℚ, InUnits k (2 ^ 22) x → InUnits k (2 ^ 22) y → Apart (2 ^ k) (2 ^ 23 * 2 ^ k) x y := by
    rintro x y ⟨n, hn, rfl⟩ ⟨m, hm, rfl⟩
    have e : ((n : ℚ) * 2 ^ k - m * 2 ^ k) = ((n - m : ℤ) : ℚ) * 2 ^ k := by push_cast; ring
    unfold Apart
    rw [e, abs_mul, abs_of_pos hk, ← Int.cast_abs]
    constructor
    · by_cases hnm : n = m
      · left; rw [hnm]
      · right
        have : (1 : ℤ) ≤ |n - m| := Int.one_le_abs (sub_ne_zero.2 hnm)
        have : (1 : ℚ) ≤ ((|n - m| : ℤ) : ℚ) := by exact_mod_cast this
        nlinarith
    · have : |n - m| ≤ 2 ^ 23 := le_trans (abs_sub n m) (by linarith)
      have : ((|n - m| : ℤ) : ℚ) ≤ ((2 ^ 23 : ℤ) : ℚ) := by exact_mod_cast this
      push_cast at this
      exact mul_le_mul_of_nonneg_right (by push_cast; exact this) hk.le
  have size : ∀ x : ℚ, InUnits k (2 ^ 22) x → |x| ≤ 2 ^ 22 * 2 ^ k := by
    rintro x ⟨n, hn, rfl⟩
    rw [abs_mul, abs_of_pos hk, ← Int.cast_abs]
    refine mul_le_mul_of_nonneg_right ?_ hk.le
    have : ((|n| : ℤ) : ℚ) ≤ ((2 ^ 22 : ℤ) : ℚ) := by exact_mod_cast hn
    push_cast at this ⊢
    exact this
  have dbl : ∀ x : ℚ, InUnits k (2 ^ 22) x → IsDouble x := by
    rintro x ⟨n, hn, rfl⟩
    exact ⟨n, k, le_trans hn (by norm_num), rfl⟩
  refine ⟨hk, fun p hp => ⟨dbl _ (h p hp).1, dbl _ (h p hp).2⟩, fun p hp => ⟨size _ (h p hp).1, size _ (h p hp).2⟩,
    fun p hp q hq => ⟨one _ _ (h p hp).1 (h q hq).1, one _ _ (h p hp).2 (h q hq).2⟩, ?_⟩
  have : (2 : ℚ) ^ 23 * 2 ^ k * (2 ^ 22 * 2 ^ k) = 2 ^ 45 * (2 ^ k) ^ 2 := by ring
  rw [this]
  have : (0 : ℚ) ≤ (2 ^ k) ^ 2 := by positivity
  nlinarith [show (2 : ℚ) ^ 45 ≤ 2 ^ 46 by norm_num]

/-- Five points in quarters of a metre. -/
example := C145_index_partial double (cap := 2) (by omega) (pts := exPts) (spaced_units (k := -2) (by
  intro p hp
  simp only [exPts, List.mem_cons, List.not_mem_nil, or_false] at hp
  rcases hp with rfl | rfl | rfl | rfl | rfl
  · exact ⟨⟨0, by norm_num, by norm_num⟩, ⟨0, by norm_num, by norm_num⟩⟩
  · exact ⟨⟨4, by norm_num, by norm_num⟩, ⟨4, by norm_num, by norm_num⟩⟩
  · exact ⟨⟨1, by norm_num, by norm_num⟩, ⟨1, by norm_num, by norm_num⟩⟩
  · exact ⟨⟨0, by norm_num, by norm_num⟩, ⟨0, by norm_num, by norm_num⟩⟩
  · exact ⟨⟨3, by norm_num, by norm_num⟩, ⟨0, by norm_num, by norm_num⟩⟩))

/-- The doubles `0.3`, `0.1 + 0.2` and the next one. -/
def a3 : ℚ := 5404319552844595 / 2 ^ 54
def b3 : ℚ := 5404319552844596 / 2 ^ 54
def c3 : ℚ := 5404319552844597 / 2 ^ 54

example : rnd (3 / 10) = a3 ∧ rnd (rnd (1 / 10) + rnd (2 / 10)) = b3 := by decide +kernel

/-- Fifty-two points with the coordinates `0.3` and `0.1 + 0.2`. -/
def columns : List Pt := [⟨b3, 0⟩, ⟨a3, 120⟩] ++ (List.range 50).map fun i => ⟨a3, i⟩

/-- C145 is violated: a point is lost.  Among fifty-two points with the coordinates `0.3` and `0.1 + 0.2`, which are neighbouring doubles,
the first one is not found by searching a box around it, with the default capacity of 50: when the second leaf is divided, its
rounded midpoint lies in another quadrant of the parent, whose points are dropped. -/
theorem C145_violated_lost :
    ∃ s, (∀ fuel, 2 ≤ fuel → buildF double 50 fuel columns = some s) ∧
      columns[0]? = some ⟨b3, 0⟩ ∧ Box.Inside ⟨0, -1, 1, 1 / 2⟩ ⟨b3, 0⟩ ∧ 0 ∉ search s ⟨0, -1, 1, 1 / 2⟩ := by
  have h : ((buildF double 50 2 columns).map fun s => decide (0 ∉ search s ⟨0, -1, 1, 1 / 2⟩)) = some true := by
    decide +kernel
  cases e : buildF double 50 2 columns with
  | none => rw [e] at h; cases h
  | some s =>
    rw [e] at h
    refine ⟨s, fun fuel hf => ?_, rfl, by unfold Box.Inside b3; norm_num, by simpa using h⟩
    induction hf with
    | refl => exact e
    | step _ ih => exact buildLoopF_mono _ _ _ _ _ _ ih

/-- Four points whose coordinates are two neighbouring doubles. -/
def corners : List Pt := [⟨b3, b3⟩, ⟨b3, c3⟩, ⟨c3, b3⟩, ⟨c3, c3⟩]

theorem corners_split (fuel : Nat) :
    splitF double 4 fuel ⟨b3, b3, c3, c3⟩ [⟨0, ⟨b3, b3⟩⟩, ⟨1, ⟨b3, c3⟩⟩, ⟨2, ⟨c3, b3⟩⟩, ⟨3, ⟨c3, c3⟩⟩] = none := by
  induction fuel with
  | zero => rfl
  | succ n ih =>
    have hm : midPt double ⟨b3, b3, c3, c3⟩ = ⟨b3, b3⟩ := by decide +kernel
    have hq : ∀ p : Pt, b3 ≤ p.x → b3 ≤ p.y → quadrantF double ⟨b3, b3, c3, c3⟩ p = .ur := by
      intro p h1 h2
      unfold quadrantF
      rw [hm, if_neg (not_lt.2 h1), if_neg (not_lt.2 h2)]
    have hbc : b3 ≤ c3 := by decide +kernel
    have e1 := hq ⟨b3, b3⟩ le_rfl le_rfl
    have e2 := hq ⟨b3, c3⟩ le_rfl hbc
    have e3 := hq ⟨c3, b3⟩ hbc le_rfl
    have e4 := hq ⟨c3, c3⟩ hbc hbc
    have hb : quadBoxF double ⟨b3, b3, c3, c3⟩ .ur = ⟨b3, b3, c3, c3⟩ := by unfold quadBoxF; rw [hm]
    rw [splitF]
    simp [e1, e2, e3, e4, hb, ih]

/-- C145 is violated: the construction does not end.  With a capacity of at most four, two neighbouring doubles are never separated. -/
theorem C145_violated_endless (fuel : Nat) : buildF double 4 fuel corners = none := by
  have hbc : b3 ≤ c3 := by decide +kernel
  have hne : b3 ≠ c3 := by decide +kernel
  have hb : bbox corners = some ⟨b3, b3, c3, c3⟩ := by decide +kernel
  unfold buildF
  rw [hb, Option.getD_some]
  simp [corners, buildLoopF, insertF, duplicate, hne, hne.symm, corners_split]

/-! ### Radii -/

/-- What is assumed of `math.sqrt` for numbers in units of `2 ^ k`: it keeps the order, is exact for squares and has a relative error. -/
structure SqrtIn (k : ℤ) (sq : ℚ → ℚ) : Prop where
  mono : ∀ x y, 0 ≤ x → x ≤ y → sq x ≤ sq y
  exact : ∀ n : ℤ, |n| ≤ 2 ^ 26 → sq ((n : ℚ) * 2 ^ k * (n * 2 ^ k)) = |(n : ℚ)| * 2 ^ k
  close : ∀ n : ℕ, n ≤ 2 ^ 50 → |sq ((n : ℚ) * 2 ^ (k + k)) ^ 2 - (n : ℚ) * 2 ^ (k + k)| ≤ 1 / 2 ^ 50 * ((n : ℚ) * 2 ^ (k + k))

/-- A square root computed to sixty places. -/
def sqrt60 (x : ℚ) : ℚ := (Nat.sqrt ⌊x * 2 ^ 120⌋₊ : ℚ) / 2 ^ 60

theorem sqrt60_meets : SqrtIn 0 sqrt60 := by
  constructor
  · intro x y _ h
    unfold sqrt60
    refine div_le_div_of_nonneg_right ?_ (by positivity)
    exact_mod_cast Nat.sqrt_le_sqrt (Nat.floor_mono (mul_le_mul_of_nonneg_right h (by positivity)))
  · intro n _
    have e : (n : ℚ) * 2 ^ (0 : ℤ) * (n * 2 ^ (0 : ℤ)) * 2 ^ 120 = ((n.natAbs * 2 ^ 60 * (n.natAbs * 2 ^ 60) : ℕ) : ℚ) := by
      push_cast
      rw [Nat.cast_natAbs, Int.cast_abs]
      have : |(n : ℚ)| * |(n : ℚ)| = n * n := abs_mul_abs_self _
      linear_combination (-(2 : ℚ) ^ 120) * this
    unfold sqrt60
    rw [e, Nat.floor_natCast, Nat.sqrt_eq]
    push_cast
    rw [Nat.cast_natAbs, Int.cast_abs]
    ring
  · intro n _
    unfold sqrt60
    have e : (n : ℚ) * 2 ^ ((0 : ℤ) + 0) * 2 ^ 120 = ((n * 2 ^ 120 : ℕ) : ℚ) := by push_cast; norm_num
    rw [e, Nat.floor_natCast]
    have h1 := Nat.sqrt_le (n * 2 ^ 120)
    have h2 := Nat.sqrt_le_add (n * 2 ^ 120)
    have h3 : Nat.sqrt (n * 2 ^ 120) ≤ n * 2 ^ 60 := by
      rcases Nat.eq_zero_or_pos n with rfl | hn
      · simp
      · refine Nat.lt_succ_iff.1 (Nat.sqrt_lt.2 ?_)
        nlinarith
    generalize Nat.sqrt (n * 2 ^ 120) = v at *
    have h1' : (v : ℚ) * v ≤ n * 2 ^ 120 := by exact_mod_cast h1
    have h2' : (n : ℚ) * 2 ^ 120 ≤ v * v + v + v := by exact_mod_cast h2
    have h3' : (v : ℚ) ≤ n * 2 ^ 60 := by exact_mod_cast h3
    have e2 : ((v : ℚ) / 2 ^ 60) ^ 2 - n * 2 ^ ((0 : ℤ) + 0) = (v * v - n * 2 ^ 120) / 2 ^ 120 := by
      rw [add_zero, zpow_zero]; ring
    rw [e2, abs_div, abs_of_pos (show (0 : ℚ) < 2 ^ 120 by positivity), div_le_iff₀ (by positivity), abs_le, add_zero, zpow_zero]
    have n0 : (0 : ℚ) ≤ n := by positivity
    constructor <;> norm_num at h1' h2' h3' ⊢ <;> nlinarith

/-- C145, radii: with all coordinates and the radius in whole units (at most `2 ^ 22` of them), `within_radius` selects the same points
with and without the index, although distances and the bounds of the box searched are rounded: those nearer than the radius, by
increasing index. -/
theorem C145_radius_partial (R : Rounding) {sq : ℚ → ℚ} {k : ℤ} (hsq : SqrtIn k sq) {cap : Nat} (hcap : 2 ≤ cap) {pts : List Pt}
    (h : ∀ p ∈ pts, InUnits k (2 ^ 22) p.x ∧ InUnits k (2 ^ 22) p.y) :
    ∃ s n, (∀ fuel, n ≤ fuel → buildF R cap fuel pts = some s) ∧
      ∀ (c : Pt) (r : ℚ), InUnits k (2 ^ 22) c.x → InUnits k (2 ^ 22) c.y → InUnits k (2 ^ 22) r →
        withinRadiusIndexedF R sq s pts c r = withinRadiusPlainF R sq pts c r ∧
        ∀ i, i ∈ withinRadiusPlainF R sq pts c r ↔
          ∃ p, pts[i]? = some p ∧ 0 < r ∧ (c.x - p.x) ^ 2 + (c.y - p.y) ^ 2 < r ^ 2 := by
  obtain ⟨s, n, hb, hs⟩ := C145_index_partial R hcap (spaced_units h)
  refine ⟨s, n, hb, fun c r hcx hcy hr => ?_⟩
  have hk := two_pow_pos k
  -- the distance, without the inner roundings
  have dist : ∀ p ∈ pts, distF R sq c p = sq ((p.x - c.x) * (p.x - c.x) + (p.y - c.y) * (p.y - c.y)) := by
    intro p hp
    have dx : InUnits k (2 ^ 23) (p.x - c.x) := ((h p hp).1.sub hcx).mono (by norm_num)
    have dy : InUnits k (2 ^ 23) (p.y - c.y) := ((h p hp).2.sub hcy).mono (by norm_num)
    have dx2 := dx.mul dx
    have dy2 := dy.mul dy
    unfold distF
    rw [dx.exact R (by norm_num), dy.exact R (by norm_num), dx2.exact R (by norm_num), dy2.exact R (by norm_num),
      (dx2.add dy2).exact R (by norm_num)]
  -- comparing with the radius
  have less : ∀ p ∈ pts, distF R sq c p < r ↔ 0 < r ∧ (c.x - p.x) ^ 2 + (c.y - p.y) ^ 2 < r ^ 2 := by
    intro p hp
    rw [dist p hp]
    obtain ⟨a, ha, ea⟩ : InUnits k (2 ^ 23) (p.x - c.x) := ((h p hp).1.sub hcx).mono (by norm_num)
    obtain ⟨b, hb', eb⟩ : InUnits k (2 ^ 23) (p.y - c.y) := ((h p hp).2.sub hcy).mono (by norm_num)
    obtain ⟨m, hm, em⟩ := hr
    have ex : (c.x - p.x) ^ 2 + (c.y - p.y) ^ 2 = (p.x - c.x) * (p.x - c.x) + (p.y - c.y) * (p.y - c.y) := by ring
    rw [ex, ea, eb, em]
    have hkk : (2 : ℚ) ^ (k + k) = 2 ^ k * 2 ^ k := zpow_add₀ (by norm_num) k k
    have hab : (0 : ℤ) ≤ a * a + b * b := add_nonneg (mul_self_nonneg a) (mul_self_nonneg b)
    obtain ⟨N, hN⟩ := Int.eq_ofNat_of_zero_le hab
    have hNq : (a : ℚ) * a + b * b = N := by exact_mod_cast hN
    have e1 : (a : ℚ) * 2 ^ k * (a * 2 ^ k) + b * 2 ^ k * (b * 2 ^ k) = N * 2 ^ (k + k) := by rw [hkk, ← hNq]; ring
    have hNle : N ≤ 2 ^ 50 := by
      have h1 : a * a ≤ 2 ^ 46 := by nlinarith [abs_le.1 ha]
      have h2 : b * b ≤ 2 ^ 46 := by nlinarith [abs_le.1 hb']
      have : (N : ℤ) ≤ 2 ^ 50 := by omega
      exact_mod_cast this
    rw [e1]
    have hcl := hsq.close N hNle
    have hkk0 : (0 : ℚ) < 2 ^ (k + k) := two_pow_pos _
    have hN0 : (0 : ℚ) ≤ N * 2 ^ (k + k) := by positivity
    have s0 : 0 ≤ sq ((N : ℚ) * 2 ^ (k + k)) := by
      have e0 := hsq.exact 0 (by norm_num)
      have := hsq.mono 0 _ le_rfl hN0
      simp only [Int.cast_zero, zero_mul, abs_zero] at e0
      rwa [e0] at this
    constructor
    · intro hlt
      have hr0 : 0 < (m : ℚ) * 2 ^ k := lt_of_le_of_lt s0 hlt
      refine ⟨hr0, ?_⟩
      by_contra hge
      rw [not_lt] at hge
      have := hsq.mono _ _ (pow_two_nonneg _) hge
      rw [show ((m : ℚ) * 2 ^ k) ^ 2 = m * 2 ^ k * (m * 2 ^ k) by ring, hsq.exact m (le_trans hm (by norm_num))] at this
      have hm0 : 0 < (m : ℚ) := by
        by_contra hc
        nlinarith
      rw [abs_of_pos hm0] at this
      linarith
    · rintro ⟨hr0, hlt⟩
      have hm0 : 0 < (m : ℚ) := by
        by_contra hc
        nlinarith
      -- whole numbers: at least one unit below
      have e2 : ((m : ℚ) * 2 ^ k) ^ 2 = m * m * 2 ^ (k + k) := by rw [hkk]; ring
      rw [e2] at hlt
      have h1 : (N : ℚ) < m * m := lt_of_mul_lt_mul_right hlt hkk0.le
      have h1' : (N : ℤ) < m * m := by exact_mod_cast h1
      have h2 : (N : ℚ) ≤ m * m - 1 := by
        have : (N : ℤ) ≤ m * m - 1 := by omega
        exact_mod_cast this
      have hNb : (N : ℚ) < 2 ^ 50 := by
        have : m * m ≤ 2 ^ 44 := by nlinarith [abs_le.1 hm]
        have : (N : ℤ) < 2 ^ 50 := by omega
        exact_mod_cast this
      rw [abs_le] at hcl
      have h3 : sq ((N : ℚ) * 2 ^ (k + k)) ^ 2 < ((m : ℚ) * 2 ^ k) ^ 2 := by
        rw [e2]
        have h4 : (N : ℚ) + 1 / 2 ^ 50 * N < m * m := by
          have : (1 : ℚ) / 2 ^ 50 * N < 1 := by
            rw [one_div, inv_mul_lt_iff₀ (by positivity)]; linarith
          linarith
        have := mul_lt_mul_of_pos_right h4 hkk0
        linarith [hcl.2]
      exact lt_of_pow_lt_pow_left₀ 2 hr0.le h3
  have mem : ∀ i, i ∈ withinRadiusPlainF R sq pts c r ↔
      ∃ p, pts[i]? = some p ∧ 0 < r ∧ (c.x - p.x) ^ 2 + (c.y - p.y) ^ 2 < r ^ 2 := by
    intro i
    simp only [withinRadiusPlainF, List.mem_filter, List.mem_range, testAt]
    by_cases hi : i < pts.length
    · rw [List.getElem?_eq_getElem hi]
      simp only [hi, true_and, decide_eq_true_eq, Option.some.injEq, exists_eq_left']
      exact less _ (List.getElem_mem hi)
    · rw [List.getElem?_eq_none (by omega)]; simp
  refine ⟨?_, mem⟩
  have hx1 := (hcx.sub hr).exact R (by norm_num)
  have hy1 := (hcy.sub hr).exact R (by norm_num)
  have hx2 := (hcx.add hr).exact R (by norm_num)
  have hy2 := (hcy.add hr).exact R (by norm_num)
  unfold withinRadiusIndexedF
  rw [hx1, hy1, hx2, hy2]
  obtain ⟨hn, hm⟩ := hs ⟨c.x - r, c.y - r, c.x + r, c.y + r⟩
  apply nodup_perm_filter _ (hn.filter _)
  intro i
  rw [List.mem_filter, hm]
  unfold testAt
  by_cases hi : i < pts.length
  · rw [List.getElem?_eq_getElem hi]
    simp only [hi, true_and, Option.some.injEq]
    constructor
    · rintro ⟨_, h⟩; exact h
    · intro h
      refine ⟨⟨_, rfl, ?_⟩, h⟩
      rw [decide_eq_true_eq] at h
      obtain ⟨h0, h1⟩ := (less _ (List.getElem_mem hi)).1 h
      rw [pow_two, pow_two, pow_two] at h1
      have hx := sq_lt_abs h0 h1
      have hy := sq_lt_abs h0 (by linarith : (c.y - pts[i].y) * (c.y - pts[i].y)
        + (c.x - pts[i].x) * (c.x - pts[i].x) < r * r)
      simp only [Box.Inside]
      refine ⟨?_, ?_, ?_, ?_⟩ <;> linarith [hx.1, hx.2, hy.1, hy.2]
  · rw [List.getElem?_eq_none (by omega)]; simp

example := C145_radius_partial double sqrt60_meets (cap := 50) (by omega) (pts := [⟨0, 0⟩, ⟨3, 4⟩, ⟨-7, 1⟩]) (by
  intro p hp
  simp only [List.mem_cons, List.not_mem_nil, or_false] at hp
  rcases hp with rfl | rfl | rfl
  · exact ⟨⟨0, by norm_num, by norm_num⟩, ⟨0, by norm_num, by norm_num⟩⟩
  · exact ⟨⟨3, by norm_num, by norm_num⟩, ⟨4, by norm_num, by norm_num⟩⟩
  · exact ⟨⟨-7, by norm_num, by norm_num⟩, ⟨1, by norm_num, by norm_num⟩⟩)

/-- The double next to one quarter. -/
def quarter : ℚ := 1 / 4 + 1 / 2 ^ 54

/-- C145 is violated: `within_radius` depends on the index.  The point `(0.75, 0)` is nearer to `(1, 0)` than the double next to
`0.25`, and is found without the index; with the index it is not, because `1 - radius` is rounded to `0.75`. -/
theorem C145_violated_radius {sq : ℚ → ℚ} (hsq : sq (1 / 16) = 1 / 4) :
    (1 - (3 / 4 : ℚ)) ^ 2 < quarter ^ 2 ∧
    withinRadiusPlainF double sq [⟨3 / 4, 0⟩] ⟨1, 0⟩ quarter = [0] ∧
    ∃ s, (∀ fuel, buildF double 50 fuel [⟨3 / 4, 0⟩] = some s) ∧
      withinRadiusIndexedF double sq s [⟨3 / 4, 0⟩] ⟨1, 0⟩ quarter = [] := by
  have hd : distF double sq ⟨1, 0⟩ ⟨3 / 4, 0⟩ = 1 / 4 := by
    have e : double.fl (double.fl (double.fl ((3 / 4 : ℚ) - 1) * double.fl (3 / 4 - 1)) +
        double.fl (double.fl ((0 : ℚ) - 0) * double.fl (0 - 0))) = 1 / 16 := by decide +kernel
    unfold distF
    rw [e, hsq]
  have hq : (1 / 4 : ℚ) < quarter := by decide +kernel
  refine ⟨by decide +kernel, ?_, ⟨.leaf ⟨3 / 4, 0, 3 / 4, 0⟩ [⟨0, ⟨3 / 4, 0⟩⟩], fun _ => []⟩, fun fuel => rfl, ?_⟩
  · have : testAt [(⟨3 / 4, 0⟩ : Pt)] 0 (fun p => decide (distF double sq ⟨1, 0⟩ p < quarter)) = true := by
      unfold testAt
      simp only [List.getElem?_cons_zero]
      rw [hd, decide_eq_true hq]
    unfold withinRadiusPlainF
    rw [List.length_singleton, List.range_one, List.filter_cons, if_pos this, List.filter_nil]
  · have hs : search ⟨.leaf ⟨3 / 4, 0, 3 / 4, 0⟩ [⟨0, ⟨3 / 4, 0⟩⟩], fun _ => []⟩
        ⟨double.fl (1 - quarter), double.fl (0 - quarter), double.fl (1 + quarter), double.fl (0 + quarter)⟩ = [] := by
      decide +kernel
    unfold withinRadiusIndexedF
    rw [hs]
    rfl

end Karta.Float.QT
