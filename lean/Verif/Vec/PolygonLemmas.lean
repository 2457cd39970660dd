import Verif.Vec.PolygonSpec
import Verif.Vec.BasicLemmas
import Mathlib.Algebra.BigOperators.Group.List.Basic
import Mathlib.Tactic.LinearCombination
import Mathlib.Tactic.Abel

namespace Karta.Vec

variable {M : Type} [AddCommGroup M]

theorem foldl_add_eq_sum {α : Type} (g : α → M) (l : List α) (z : M) :
    l.foldl (fun acc e => acc + g e) z = z + (l.map g).sum := by
  induction l generalizing z with
  | nil => simp
  | cons a l ih => simp [ih, add_assoc]

theorem length_ringEdges (ps : List Pt) : (ringEdges ps).length = ps.length := by
  simp [ringEdges]

theorem ringEdges_rotate (ps : List Pt) (k : Nat) : ringEdges (ps.rotate k) = (ringEdges ps).rotate k := by
  unfold ringEdges
  rw [List.zip_eq_zipWith, List.zip_eq_zipWith, List.zipWith_rotate_distrib _ _ _ _ (by simp), List.rotate_rotate,
    List.rotate_rotate, Nat.add_comm]

theorem segmentTuples_eq (ps : List Pt) : segmentTuples ps = (ringEdges ps).rotate (ps.length - 1) := by
  unfold segmentTuples ringEdges
  rw [List.zip_eq_zipWith, List.zip_eq_zipWith, List.zipWith_rotate_distrib _ _ _ _ (by simp), List.rotate_rotate]
  cases ps with
  | nil => simp
  | cons p ps =>
    have : 1 + ((p :: ps).length - 1) = (p :: ps).length := by simp; omega
    rw [this, List.rotate_length]

theorem sum_segmentTuples (g : Pt × Pt → M) (ps : List Pt) :
    ((segmentTuples ps).map g).sum = ((ringEdges ps).map g).sum := by
  rw [segmentTuples_eq]
  exact ((List.rotate_perm _ _).map g).sum_eq

theorem sum_ringEdges_rotate (g : Pt × Pt → M) (ps : List Pt) (k : Nat) :
    ((ringEdges (ps.rotate k)).map g).sum = ((ringEdges ps).map g).sum := by
  rw [ringEdges_rotate]
  exact ((List.rotate_perm _ _).map g).sum_eq

theorem sum_ringEdges_map (h : Pt → Pt) (g : Pt × Pt → M) (ps : List Pt) :
    ((ringEdges (ps.map h)).map g).sum = ((ringEdges ps).map fun e => g (h e.1, h e.2)).sum := by
  unfold ringEdges
  rw [← List.map_rotate, List.zip_map, List.map_map]
  rfl

/-- Closing the path: the ring sum of the specification is the sum over the model's edges. -/
theorem zip_tail_sum (f : Pt → Pt → M) (l : List Pt) :
    ((List.zip l l.tail).map fun e => f e.1 e.2).sum = pathSum f l := by
  induction l with
  | nil => simp [pathSum]
  | cons a l ih =>
    cases l with
    | nil => simp [pathSum]
    | cons b l => simpa [pathSum] using ih

theorem zip_append_last (l : List Pt) (q : Pt) :
    List.zip (l ++ [q]) (l ++ [q]).tail = List.zip l (l ++ [q]).tail := by
  induction l with
  | nil => simp
  | cons a l ih =>
    cases l with
    | nil => simp
    | cons b l => simpa using ih

theorem sum_ringEdges (f : Pt → Pt → M) (ps : List Pt) :
    ((ringEdges ps).map fun e => f e.1 e.2).sum = ringSum f ps := by
  cases ps with
  | nil => simp [ringEdges, ringSum]
  | cons p ps =>
    rw [ringSum, ← zip_tail_sum, zip_append_last]
    simp [ringEdges]

theorem sum_segmentTuples' (f : Pt → Pt → M) (ps : List Pt) :
    ((segmentTuples ps).map fun e => f e.1 e.2).sum = ringSum f ps := by
  rw [sum_segmentTuples (fun e => f e.1 e.2), sum_ringEdges]

/-! ### Algebra of ring sums -/

theorem ringSum_rotate (f : Pt → Pt → M) (ps : List Pt) (k : Nat) :
    ringSum f (ps.rotate k) = ringSum f ps := by
  rw [← sum_ringEdges, ← sum_ringEdges, sum_ringEdges_rotate (fun e => f e.1 e.2)]

theorem ringSum_map (h : Pt → Pt) (f : Pt → Pt → M) (ps : List Pt) :
    ringSum f (ps.map h) = ringSum (fun a b => f (h a) (h b)) ps := by
  rw [← sum_ringEdges, ← sum_ringEdges, sum_ringEdges_map h (fun e => f e.1 e.2)]

theorem pathSum_append (f : Pt → Pt → M) (l : List Pt) (x : Pt) (m : List Pt) :
    pathSum f (l ++ x :: m) = pathSum f (l ++ [x]) + pathSum f (x :: m) := by
  induction l with
  | nil => simp [pathSum]
  | cons a l ih =>
    cases l with
    | nil => simp [pathSum]
    | cons b l =>
      simp only [List.cons_append, pathSum] at ih ⊢
      rw [ih, add_assoc]

theorem pathSum_reverse' (f : Pt → Pt → M) (l : List Pt) :
    pathSum f l.reverse = pathSum (fun a b => f b a) l := by
  induction l with
  | nil => simp [pathSum]
  | cons a l ih =>
    cases l with
    | nil => simp [pathSum]
    | cons b l =>
      have e : (a :: b :: l).reverse = l.reverse ++ b :: [a] := by simp
      rw [e, pathSum_append]
      have e2 : l.reverse ++ [b] = (b :: l).reverse := by simp
      rw [e2, ih]
      simp only [pathSum, add_zero]
      abel

theorem ringSum_reverse (f : Pt → Pt → M) (ps : List Pt) :
    ringSum f ps.reverse = ringSum (fun a b => f b a) ps := by
  cases ps with
  | nil => simp [ringSum]
  | cons p ps =>
    have e : (p :: ps).reverse = (p :: ps.reverse).rotate 1 := by simp
    rw [e, ringSum_rotate, ringSum, ringSum, ← pathSum_reverse']
    simp

theorem ringSum_add (f g : Pt → Pt → M) (ps : List Pt) :
    ringSum (fun a b => f a b + g a b) ps = ringSum f ps + ringSum g ps := by
  rw [← sum_ringEdges, ← sum_ringEdges, ← sum_ringEdges, ← List.sum_map_add]

theorem ringSum_neg (f : Pt → Pt → M) (ps : List Pt) :
    ringSum (fun a b => - f a b) ps = - ringSum f ps := by
  have h := ringSum_add f (fun a b => - f a b) ps
  simp only [add_neg_cancel] at h
  have h0 : ringSum (fun _ _ => (0 : M)) ps = 0 := by
    rw [← sum_ringEdges]; simp
  rw [h0] at h
  exact (neg_eq_of_add_eq_zero_right h.symm).symm

theorem ringSum_zero (ps : List Pt) : ringSum (fun _ _ => (0 : M)) ps = 0 := by
  rw [← sum_ringEdges]; simp

/-- A difference telescopes around the ring. -/
theorem ringSum_telescope (f : Pt → M) (ps : List Pt) : ringSum (fun a b => f b - f a) ps = 0 := by
  rw [← sum_ringEdges]
  have h1 : ((ringEdges ps).map fun e => f e.1).sum = (ps.map f).sum := by
    have : (ringEdges ps).map (fun e => f e.1) = ((ringEdges ps).map Prod.fst).map f := by simp
    rw [this, ringEdges, List.map_fst_zip (by simp)]
  have h2 : ((ringEdges ps).map fun e => f e.2).sum = (ps.map f).sum := by
    have : (ringEdges ps).map (fun e => f e.2) = ((ringEdges ps).map Prod.snd).map f := by simp
    rw [this, ringEdges, List.map_snd_zip (by simp)]
    exact ((List.rotate_perm _ _).map f).sum_eq
  simp only [sub_eq_add_neg]
  rw [List.sum_map_add, h2]
  have h3 : ((ringEdges ps).map fun e => - f e.1).sum = - (ps.map f).sum := by
    rw [← h1, List.sum_neg, List.map_map]; rfl
  rw [h3, add_neg_cancel]

theorem sum_map_mul_left' {α : Type} (c : ℚ) (g : α → ℚ) (l : List α) :
    (l.map fun e => c * g e).sum = c * (l.map g).sum := by
  induction l with
  | nil => simp
  | cons a l ih => simp [ih, mul_add]

theorem ringSum_mul (c : ℚ) (f : Pt → Pt → ℚ) (ps : List Pt) :
    ringSum (fun a b => c * f a b) ps = c * ringSum f ps := by
  rw [← sum_ringEdges, ← sum_ringEdges, sum_map_mul_left']

/-! ### Cutting a ring in two -/

theorem pathSum_reverse (f : Pt → Pt → M) (hf : ∀ a b, f b a = - f a b) (l : List Pt) :
    pathSum f l.reverse = - pathSum f l := by
  induction l with
  | nil => simp [pathSum]
  | cons a l ih =>
    cases l with
    | nil => simp [pathSum]
    | cons b l =>
      have e : (a :: b :: l).reverse = l.reverse ++ b :: [a] := by simp
      rw [e, pathSum_append]
      have e2 : l.reverse ++ [b] = (b :: l).reverse := by simp
      rw [e2, ih]
      simp only [pathSum, add_zero, hf a b]
      abel

/-- Cutting the ring `u, as, v, bs` along the path `u, cs, v`. -/
theorem ringSum_cut (f : Pt → Pt → M) (hf : ∀ a b, f b a = - f a b) (u v : Pt) (as bs cs : List Pt) :
    ringSum f (u :: as ++ v :: bs) =
      ringSum f (u :: as ++ v :: cs.reverse) + ringSum f (u :: cs ++ v :: bs) := by
  have key : ∀ xs ys : List Pt, ringSum f (u :: xs ++ v :: ys) =
      pathSum f (u :: xs ++ [v]) + pathSum f (v :: ys ++ [u]) := by
    intro xs ys
    have : u :: xs ++ v :: ys ++ [u] = (u :: xs) ++ v :: (ys ++ [u]) := by simp
    rw [List.cons_append, ringSum, ← List.cons_append, this, pathSum_append]
    simp
  rw [key, key, key]
  have hr : pathSum f (v :: cs.reverse ++ [u]) = - pathSum f (u :: cs ++ [v]) := by
    rw [← pathSum_reverse f hf]; simp
  rw [hr]; abel

end Karta.Vec
