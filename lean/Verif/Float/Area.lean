import Verif.Float.Contains

/-!
Model of the area, the orientation and the centroid of planar polygons (`/repo/karta/vector/geometry.py`) with rounded arithmetic, and
property C155.
-/

namespace Karta.Float
open Karta Karta.Vec

variable (R : Rounding)

/-- Python's `sum` of floats: from left to right, every partial sum rounded (Python before version 3.12, and all versions for numpy
scalars). -/
def sumF (l : List ℚ) : ℚ := l.foldl (fun acc t => R.fl (acc + t)) 0

/-- `(0.5*(x[i+1]+x[i]) - x0) * (y[i+1] - y[i])` (geometry.py 1141-1142). -/
def areaTermF (x0 : ℚ) (e : Pt × Pt) : ℚ :=
  R.fl (R.fl (R.fl (1 / 2 * R.fl (e.2.x + e.1.x)) - x0) * R.fl (e.2.y - e.1.y))

/-- `area = first; area += sum(others)` (geometry.py 1141-1142): the term of the closing pair, which `segmentTuples` lists first, is added
to the sum of the others. -/
def firstAndSumF : List ℚ → ℚ
  | [] => 0
  | t :: ts => R.fl (t + sumF R ts)

/-- The signed sum of `Polygon.area` in a Cartesian system (geometry.py 1139-1142). -/
def signedAreaF : List Pt → Except Err ℚ
  | [] => .error .valueError
  | p :: ps => .ok (firstAndSumF R ((segmentTuples (p :: ps)).map (areaTermF R (minX p ps))))

mutual
/-- `Polygon.area` in a Cartesian system (geometry.py 1109-1143). -/
def areaF : Poly → Except Err ℚ
  | .mk ring subs => do
    let a ← signedAreaF R ring
    let s ← areaSumF 0 subs
    return R.fl (|a| - s)
/-- `sum(sub.area for sub in self.subs)` (geometry.py 1143), with the sum so far. -/
def areaSumF (acc : ℚ) : List Poly → Except Err ℚ
  | [] => .ok acc
  | p :: ps => do
    let a ← areaF p
    areaSumF (R.fl (acc + a)) ps
end

/-- `(seg[1][0] - seg[0][0]) * (seg[1][1] + seg[0][1])` (geometry.py 1046). -/
def windTermF (e : Pt × Pt) : ℚ := R.fl (R.fl (e.2.x - e.1.x) * R.fl (e.2.y + e.1.y))

/-- `Polygon.isclockwise` (geometry.py 1044-1048). -/
def isclockwiseF (ps : List Pt) : Bool := decide (sumF R ((segmentTuples ps).map (windTermF R)) > 0)

/-- `x[i]*y[i+1] - x[i+1]*y[i]` (geometry.py 1149). -/
def crossF (e : Pt × Pt) : ℚ := R.fl (R.fl (e.1.x * e.2.y) - R.fl (e.2.x * e.1.y))

/-- `Polygon.centroid` (geometry.py 1145-1154); `none` when the division is by zero. -/
def centroidF (ps : List Pt) : Option Pt :=
  let A := R.fl (1 / 2 * sumF R ((segmentTuples ps).map (crossF R)))
  let cx := sumF R ((segmentTuples ps).map fun e => R.fl (R.fl (e.1.x + e.2.x) * crossF R e))
  let cy := sumF R ((segmentTuples ps).map fun e => R.fl (R.fl (e.1.y + e.2.y) * crossF R e))
  if R.fl (6 * A) = 0 then none else some ⟨R.fl (cx / R.fl (6 * A)), R.fl (cy / R.fl (6 * A))⟩

/-! ### Specification -/

/-- The number of vertices of a polygon and of its sub-polygons. -/
def vertexCount (p : Poly) : ℤ := ((ringsOf p).map fun r => (r.length : ℤ)).sum

/-- See `vertexCount`. -/
def vertexCountAll (ps : List Poly) : ℤ := ((ringsOfAll ps).map fun r => (r.length : ℤ)).sum

/-- The relative error after `n` roundings, at most. -/
def growth (n : ℕ) : ℚ := (1 + 1 / 2 ^ 53) ^ n - 1

/-! ### Helpers -/

variable {R}

theorem InUnits.abs {k B : ℤ} {x : ℚ} (h : InUnits k B x) : InUnits k B |x| := by
  obtain ⟨n, hn, rfl⟩ := h
  exact ⟨|n|, by rwa [abs_abs], by rw [_root_.abs_mul, abs_of_pos (two_pow_pos k), Int.cast_abs]⟩

theorem InUnits.half {k B : ℤ} {x : ℚ} (h : InUnits k B x) : InUnits (k - 1) B (1 / 2 * x) := by
  obtain ⟨n, hn, rfl⟩ := h
  exact ⟨n, hn, by rw [zpow_sub₀ (by norm_num), zpow_one]; ring⟩

theorem InUnits.finer {k B : ℤ} {x : ℚ} (h : InUnits k B x) : InUnits (k - 1) (2 * B) x := by
  obtain ⟨n, hn, rfl⟩ := h
  refine ⟨2 * n, ?_, by rw [zpow_sub₀ (by norm_num), zpow_one]; push_cast; ring⟩
  rw [_root_.abs_mul, abs_of_pos (by norm_num)]; omega

theorem foldl_units {k D : ℤ} : ∀ (l : List ℚ) (acc : ℚ) (E : ℤ), 0 ≤ D → InUnits k E acc → (∀ t ∈ l, InUnits k D t) →
    E + l.length * D ≤ 2 ^ 53 →
    l.foldl (fun acc t => R.fl (acc + t)) acc = acc + l.sum ∧ InUnits k (E + l.length * D) (acc + l.sum)
  | [], acc, E, _, ha, _, _ => by simpa using ha
  | t :: l, acc, E, hD, ha, hl, hb => by
    have ht := ha.add (hl t (by simp))
    have e : ((t :: l).length : ℤ) * D = D + l.length * D := by rw [List.length_cons]; push_cast; ring
    rw [e] at hb ⊢
    have hp : 0 ≤ (l.length : ℤ) * D := by positivity
    obtain ⟨h1, h2⟩ := foldl_units l (acc + t) (E + D) hD ht (fun t ht => hl t (List.mem_cons_of_mem _ ht)) (by linarith)
    rw [List.foldl_cons, ht.exact R (by linarith), h1, List.sum_cons, ← add_assoc, ← add_assoc]
    exact ⟨rfl, h2⟩

theorem zero_units (k : ℤ) : InUnits k 0 0 := ⟨0, by simp, by simp⟩

theorem sumF_units {k D : ℤ} {l : List ℚ} (hD : 0 ≤ D) (hl : ∀ t ∈ l, InUnits k D t) (hb : l.length * D ≤ 2 ^ 53) :
    sumF R l = l.sum ∧ InUnits k (l.length * D) l.sum := by
  have := foldl_units (R := R) l 0 0 hD (zero_units k) hl (by linarith)
  simpa [sumF] using this

theorem firstAndSumF_units {k D : ℤ} {l : List ℚ} (hD : 0 ≤ D) (hl : ∀ t ∈ l, InUnits k D t) (hb : l.length * D ≤ 2 ^ 53) :
    firstAndSumF R l = l.sum ∧ InUnits k (l.length * D) l.sum := by
  refine ⟨?_, (sumF_units (R := R) hD hl hb).2⟩
  cases l with
  | nil => rfl
  | cons t ts =>
    have e : ((t :: ts).length : ℤ) * D = D + ts.length * D := by rw [List.length_cons]; push_cast; ring
    rw [e] at hb
    obtain ⟨h1, h2⟩ := sumF_units (R := R) hD (fun t ht => hl t (List.mem_cons_of_mem _ ht)) (by linarith)
    rw [firstAndSumF, h1, List.sum_cons, ((hl t (by simp)).add h2).exact R hb]

theorem mem_segmentTuples {ps : List Pt} {e : Pt × Pt} (h : e ∈ segmentTuples ps) : e.1 ∈ ps ∧ e.2 ∈ ps := by
  unfold segmentTuples at h
  have := List.of_mem_zip h
  exact ⟨by simpa using this.1, this.2⟩

theorem length_segmentTuples (ps : List Pt) : (segmentTuples ps).length = ps.length := by simp [segmentTuples]

theorem minX_mem (p : Pt) (ps : List Pt) : ∃ q ∈ p :: ps, minX p ps = q.x := by
  unfold minX
  have : ∀ (ps : List Pt) (m : ℚ), (ps.map P2.x).foldl min m = m ∨ ∃ q ∈ ps, (ps.map P2.x).foldl min m = q.x := by
    intro ps
    induction ps with
    | nil => intro m; exact Or.inl rfl
    | cons a ps ih =>
      intro m
      rw [List.map_cons, List.foldl_cons]
      rcases ih (min m a.x) with h | ⟨q, hq, h⟩
      · rw [h]
        rcases min_choice m a.x with e | e
        · exact Or.inl e
        · exact Or.inr ⟨a, by simp, e⟩
      · exact Or.inr ⟨q, List.mem_cons_of_mem _ hq, h⟩
  rcases this ps p.x with h | ⟨q, hq, h⟩
  · exact ⟨p, by simp, h⟩
  · exact ⟨q, List.mem_cons_of_mem _ hq, h⟩

theorem areaTermF_units {k B : ℤ} (hB : 8 * B ^ 2 ≤ 2 ^ 53) {x0 : ℚ} {e : Pt × Pt} (h0 : InUnits k B x0)
    (h1 : InUnits k B e.1.x ∧ InUnits k B e.1.y) (h2 : InUnits k B e.2.x ∧ InUnits k B e.2.y) :
    areaTermF R x0 e = ((e.2.x + e.1.x) / 2 - x0) * (e.2.y - e.1.y) ∧
    InUnits (k - 1 + k) (8 * B ^ 2) (((e.2.x + e.1.x) / 2 - x0) * (e.2.y - e.1.y)) := by
  have hB0 : 0 ≤ B := by obtain ⟨n, hn, _⟩ := h0; exact le_trans (abs_nonneg n) hn
  have hb : 4 * B ≤ 2 ^ 53 := by nlinarith
  have s := h2.1.add h1.1
  have m := s.half
  have d := m.sub h0.finer
  have v := h2.2.sub h1.2
  have p := d.mul v
  have e8 : (B + B + 2 * B) * (B + B) = 8 * B ^ 2 := by ring
  rw [e8] at p
  have em : (e.2.x + e.1.x) / 2 = 1 / 2 * (e.2.x + e.1.x) := by ring
  rw [em]
  refine ⟨?_, p⟩
  unfold areaTermF
  rw [s.exact R (by linarith), m.exact R (by linarith), d.exact R (by linarith), v.exact R (by linarith), p.exact R hB]

theorem signedAreaF_units {k B : ℤ} {ps : List Pt} (hne : ps ≠ []) (h : ∀ v ∈ ps, InUnits k B v.x ∧ InUnits k B v.y)
    (hb : 8 * B ^ 2 * ps.length ≤ 2 ^ 53) :
    signedAreaF R ps = .ok (signedArea ps) ∧ InUnits (k - 1 + k) (8 * B ^ 2 * ps.length) (signedArea ps) := by
  cases ps with
  | nil => exact absurd rfl hne
  | cons p ps =>
    have hB : 8 * B ^ 2 ≤ 2 ^ 53 := by
      rw [List.length_cons] at hb; push_cast at hb
      have : 0 ≤ 8 * B ^ 2 * (ps.length : ℤ) := by positivity
      linarith
    obtain ⟨q, hq, eq⟩ := minX_mem p ps
    have h0 : InUnits k B (minX p ps) := by rw [eq]; exact (h q hq).1
    have ht : ∀ e ∈ segmentTuples (p :: ps), _ := fun e he =>
      areaTermF_units (R := R) (e := e) hB h0 (h _ (mem_segmentTuples he).1) (h _ (mem_segmentTuples he).2)
    have hm : (segmentTuples (p :: ps)).map (areaTermF R (minX p ps)) = (segmentTuples (p :: ps)).map fun e =>
        ((e.2.x + e.1.x) / 2 - minX p ps) * (e.2.y - e.1.y) := List.map_congr_left fun e he => (ht e he).1
    have hu : ∀ t ∈ (segmentTuples (p :: ps)).map (fun e => ((e.2.x + e.1.x) / 2 - minX p ps) * (e.2.y - e.1.y)),
        InUnits (k - 1 + k) (8 * B ^ 2) t := by
      intro t h
      obtain ⟨e, he, rfl⟩ := List.mem_map.1 h
      exact (ht e he).2
    have hs := signedAreaSum_eq (p :: ps) (by simp)
    simp only [signedAreaSum] at hs
    rw [foldl_add_eq_sum, zero_add] at hs
    have hs := Except.ok.inj hs
    obtain ⟨f1, f2⟩ := firstAndSumF_units (R := R) (by positivity) hu (by
      rw [List.length_map, length_segmentTuples]; linarith)
    rw [List.length_map, length_segmentTuples, hs, mul_comm] at f2
    refine ⟨?_, f2⟩
    rw [signedAreaF, hm, f1, hs]

theorem vertexCount_mk (ring : List Pt) (subs : List Poly) :
    vertexCount (.mk ring subs) = ring.length + vertexCountAll subs := by
  unfold vertexCount vertexCountAll; rw [ringsOf, List.map_cons, List.sum_cons]

theorem vertexCountAll_cons (p : Poly) (ps : List Poly) : vertexCountAll (p :: ps) = vertexCount p + vertexCountAll ps := by
  unfold vertexCount vertexCountAll; rw [ringsOfAll, List.map_append, List.sum_append]

theorem vertexCountAll_nonneg (ps : List Poly) : 0 ≤ vertexCountAll ps := by
  unfold vertexCountAll
  refine List.sum_nonneg fun x hx => ?_
  obtain ⟨r, _, rfl⟩ := List.mem_map.1 hx
  exact Int.natCast_nonneg _

theorem vertexCount_nonneg (p : Poly) : 0 ≤ vertexCount p := by
  have := vertexCountAll_nonneg [p]
  rw [vertexCountAll_cons] at this
  have e : vertexCountAll [] = 0 := rfl
  omega

mutual
theorem areaF_units {k B : ℤ} : ∀ p : Poly, p.NonEmpty → (∀ ring ∈ ringsOf p, ∀ v ∈ ring, InUnits k B v.x ∧ InUnits k B v.y) →
    8 * B ^ 2 * vertexCount p ≤ 2 ^ 53 →
    areaF R p = .ok p.trueArea ∧ InUnits (k - 1 + k) (8 * B ^ 2 * vertexCount p) p.trueArea
  | .mk ring subs, hne, h, hb => by
    rw [Poly.NonEmpty] at hne
    rw [vertexCount_mk, mul_add] at hb
    have h1 : 0 ≤ 8 * B ^ 2 * vertexCountAll subs := mul_nonneg (by positivity) (vertexCountAll_nonneg subs)
    have h2 : 0 ≤ 8 * B ^ 2 * (ring.length : ℤ) := by positivity
    obtain ⟨a1, a2⟩ := signedAreaF_units (R := R) hne.1 (h ring (by rw [ringsOf]; simp)) (by linarith)
    obtain ⟨s1, s2⟩ := areaSumF_units subs 0 0 (zero_units _) hne.2
      (fun r hr => h r (by rw [ringsOf]; exact List.mem_cons_of_mem _ hr)) (by linarith)
    rw [zero_add] at s1 s2
    rw [zero_add] at s2
    have d := a2.abs.sub s2
    rw [areaF, a1, s1, Poly.trueArea, vertexCount_mk, mul_add]
    refine ⟨?_, d⟩
    show Except.ok (R.fl _) = _
    rw [d.exact R hb]
theorem areaSumF_units {k B : ℤ} : ∀ (ps : List Poly) (acc : ℚ) (E : ℤ), InUnits (k - 1 + k) E acc → Poly.AllNonEmpty ps →
    (∀ ring ∈ ringsOfAll ps, ∀ v ∈ ring, InUnits k B v.x ∧ InUnits k B v.y) → E + 8 * B ^ 2 * vertexCountAll ps ≤ 2 ^ 53 →
    areaSumF R acc ps = .ok (acc + Poly.trueAreaSum ps) ∧
    InUnits (k - 1 + k) (E + 8 * B ^ 2 * vertexCountAll ps) (acc + Poly.trueAreaSum ps)
  | [], acc, E, ha, _, _, _ => by
    rw [areaSumF, Poly.trueAreaSum, add_zero]
    have e : vertexCountAll [] = 0 := rfl
    rw [e, mul_zero, add_zero]
    exact ⟨rfl, ha⟩
  | p :: ps, acc, E, ha, hne, h, hb => by
    rw [Poly.AllNonEmpty] at hne
    rw [vertexCountAll_cons, mul_add, ← add_assoc] at hb
    have hE : 0 ≤ E := by obtain ⟨n, hn, _⟩ := ha; exact le_trans (abs_nonneg n) hn
    have h1 : 0 ≤ 8 * B ^ 2 * vertexCountAll ps := mul_nonneg (by positivity) (vertexCountAll_nonneg ps)
    have h2 : 0 ≤ 8 * B ^ 2 * vertexCount p := mul_nonneg (by positivity) (vertexCount_nonneg p)
    obtain ⟨a1, a2⟩ := areaF_units p hne.1 (fun r hr => h r (by rw [ringsOfAll]; exact List.mem_append_left _ hr)) (by linarith)
    have s := ha.add a2
    obtain ⟨s1, s2⟩ := areaSumF_units ps _ _ s hne.2 (fun r hr => h r (by rw [ringsOfAll]; exact List.mem_append_right _ hr)) hb
    rw [areaSumF, a1, vertexCountAll_cons, mul_add, ← add_assoc, Poly.trueAreaSum, ← add_assoc]
    refine ⟨?_, s2⟩
    show areaSumF R (R.fl (acc + p.trueArea)) ps = _
    rw [s.exact R (by linarith), s1]
end

theorem growth_nonneg (n : ℕ) : 0 ≤ growth n := by
  unfold growth
  have : (1 : ℚ) ≤ (1 + 1 / 2 ^ 53) ^ n := one_le_pow₀ (by norm_num)
  linarith

theorem growth_succ (n : ℕ) : growth (n + 1) = (1 + 1 / 2 ^ 53) * growth n + 1 / 2 ^ 53 := by
  unfold growth; rw [pow_succ]; ring

theorem growth_mono {m n : ℕ} (h : m ≤ n) : growth m ≤ growth n := by
  unfold growth
  have : ((1 : ℚ) + 1 / 2 ^ 53) ^ m ≤ (1 + 1 / 2 ^ 53) ^ n := pow_le_pow_right₀ (by norm_num) h
  linarith

/-- One more rounding. -/
theorem fl_growth {n : ℕ} {X x M : ℚ} (h : |X - x| ≤ growth n * M) (hx : |x| ≤ M) : |R.fl X - x| ≤ growth (n + 1) * M := by
  have e := R.err X
  have t : |R.fl X - x| ≤ |R.fl X - X| + |X - x| := by
    have := abs_add_le (R.fl X - X) (X - x)
    rwa [sub_add_sub_cancel] at this
  have a : |X| ≤ |X - x| + |x| := by
    have := abs_add_le (X - x) x
    rwa [sub_add_cancel] at this
  rw [growth_succ]
  have u : (0 : ℚ) ≤ 1 / 2 ^ 53 := by norm_num
  nlinarith [mul_le_mul_of_nonneg_left a u, mul_le_mul_of_nonneg_left h u, mul_le_mul_of_nonneg_left hx u]

theorem add_growth {m n : ℕ} {X x M Y y N : ℚ} (h : |X - x| ≤ growth m * M) (hx : |x| ≤ M) (k : |Y - y| ≤ growth n * N)
    (hy : |y| ≤ N) : |X + Y - (x + y)| ≤ growth (max m n) * (M + N) ∧ |x + y| ≤ M + N := by
  have hM : 0 ≤ M := le_trans (abs_nonneg _) hx
  have hN : 0 ≤ N := le_trans (abs_nonneg _) hy
  constructor
  · have t := abs_add_le (X - x) (Y - y)
    rw [show X - x + (Y - y) = X + Y - (x + y) by ring] at t
    have a := mul_le_mul_of_nonneg_right (growth_mono (le_max_left m n)) hM
    have b := mul_le_mul_of_nonneg_right (growth_mono (le_max_right m n)) hN
    rw [mul_add]; linarith
  · exact le_trans (abs_add_le x y) (by linarith)

theorem neg_growth {n : ℕ} {X x M : ℚ} (h : |X - x| ≤ growth n * M) : |-X - -x| ≤ growth n * M := by
  rwa [show -X - -x = -(X - x) by ring, abs_neg]

theorem mul_growth {m n : ℕ} {X x M Y y N : ℚ} (h : |X - x| ≤ growth m * M) (hx : |x| ≤ M) (k : |Y - y| ≤ growth n * N)
    (hy : |y| ≤ N) : |X * Y - x * y| ≤ growth (m + n) * (M * N) ∧ |x * y| ≤ M * N := by
  have hM : 0 ≤ M := le_trans (abs_nonneg _) hx
  have hN : 0 ≤ N := le_trans (abs_nonneg _) hy
  constructor
  · have e : X * Y - x * y = (X - x) * (Y - y) + ((X - x) * y + x * (Y - y)) := by ring
    have t1 := abs_add_le ((X - x) * (Y - y)) ((X - x) * y + x * (Y - y))
    have t2 := abs_add_le ((X - x) * y) (x * (Y - y))
    rw [← e] at t1
    rw [abs_mul] at t1
    rw [abs_mul, abs_mul] at t2
    have g : growth (m + n) = growth m * growth n + growth m + growth n := by
      unfold growth; rw [pow_add]; ring
    have a := mul_le_mul h k (abs_nonneg _) (mul_nonneg (growth_nonneg m) hM)
    have b := mul_le_mul h hy (abs_nonneg _) (mul_nonneg (growth_nonneg m) hM)
    have c := mul_le_mul hx k (abs_nonneg _) hM
    rw [g]
    nlinarith
  · rw [abs_mul]; exact mul_le_mul hx hy (abs_nonneg _) hM

theorem exact_growth {x M : ℚ} : |x - x| ≤ growth 0 * M := by
  rw [sub_self, abs_zero]; unfold growth; norm_num

theorem fold_growth {α : Type} {F f m : α → ℚ} {c : ℕ} : ∀ (l : List α) (acc s M : ℚ) (d : ℕ), c ≤ d →
    |acc - s| ≤ growth d * M → |s| ≤ M → (∀ a ∈ l, |F a - f a| ≤ growth c * m a ∧ |f a| ≤ m a) →
    |(l.map F).foldl (fun acc t => R.fl (acc + t)) acc - (s + (l.map f).sum)| ≤ growth (d + l.length) * (M + (l.map m).sum)
      ∧ |s + (l.map f).sum| ≤ M + (l.map m).sum
  | [], acc, s, M, d, _, ha, hs, _ => by simpa using ⟨ha, hs⟩
  | a :: l, acc, s, M, d, hd, ha, hs, hl => by
    obtain ⟨h1, h2⟩ := hl a (by simp)
    obtain ⟨g1, g2⟩ := add_growth ha hs h1 h2
    rw [max_eq_left hd] at g1
    obtain ⟨r1, r2⟩ := fold_growth l _ _ _ (d + 1) (by omega) (fl_growth (R := R) g1 g2) g2
      (fun a ha => hl a (List.mem_cons_of_mem _ ha))
    simp only [List.map_cons, List.foldl_cons, List.sum_cons, List.length_cons]
    rw [← add_assoc s, ← add_assoc M, show d + (l.length + 1) = d + 1 + l.length by omega]
    exact ⟨r1, r2⟩

theorem sumF_growth {α : Type} {F f m : α → ℚ} {c : ℕ} (l : List α) (hl : ∀ a ∈ l, |F a - f a| ≤ growth c * m a ∧ |f a| ≤ m a) :
    |sumF R (l.map F) - (l.map f).sum| ≤ growth (c + l.length) * (l.map m).sum ∧ |(l.map f).sum| ≤ (l.map m).sum := by
  have := fold_growth (R := R) l 0 0 0 c le_rfl (by simp) (by simp) hl
  simpa [sumF] using this

theorem diff_growth (a b : ℚ) : |R.fl (a - b) - (a - b)| ≤ growth 1 * |a - b| := fl_growth exact_growth le_rfl

theorem plus_growth (a b : ℚ) : |R.fl (a + b) - (a + b)| ≤ growth 1 * |a + b| := fl_growth exact_growth le_rfl

theorem windTermF_growth (e : Pt × Pt) :
    |windTermF R e - (e.2.x - e.1.x) * (e.2.y + e.1.y)| ≤ growth 3 * |(e.2.x - e.1.x) * (e.2.y + e.1.y)| ∧
    |(e.2.x - e.1.x) * (e.2.y + e.1.y)| ≤ |(e.2.x - e.1.x) * (e.2.y + e.1.y)| := by
  refine ⟨?_, le_rfl⟩
  obtain ⟨h1, h2⟩ := mul_growth (diff_growth (R := R) e.2.x e.1.x) le_rfl (plus_growth (R := R) e.2.y e.1.y) le_rfl
  have := fl_growth (R := R) h1 h2
  rw [← abs_mul] at this
  exact this

/-- The size of the numbers from which the term of an edge is computed. -/
def areaSize (x0 : ℚ) (e : Pt × Pt) : ℚ := (|e.2.x + e.1.x| / 2 + |x0|) * |e.2.y - e.1.y|

theorem areaTermF_growth (x0 : ℚ) (e : Pt × Pt) :
    |areaTermF R x0 e - ((e.2.x + e.1.x) / 2 - x0) * (e.2.y - e.1.y)| ≤ growth 5 * areaSize x0 e ∧
    |((e.2.x + e.1.x) / 2 - x0) * (e.2.y - e.1.y)| ≤ areaSize x0 e := by
  have s := plus_growth (R := R) e.2.x e.1.x
  obtain ⟨m1, m2⟩ := mul_growth (exact_growth (x := (1 / 2 : ℚ)) (M := 1 / 2)) (by norm_num) s le_rfl
  have m3 := fl_growth (R := R) m1 m2
  obtain ⟨d1, d2⟩ := add_growth m3 m2 (neg_growth (exact_growth (x := x0) (M := |x0|))) (by rw [abs_neg])
  have d3 := fl_growth (R := R) d1 d2
  obtain ⟨p1, p2⟩ := mul_growth d3 d2 (diff_growth (R := R) e.2.y e.1.y) le_rfl
  have p3 := fl_growth (R := R) p1 p2
  unfold areaTermF areaSize
  have e1 : (e.2.x + e.1.x) / 2 - x0 = 1 / 2 * (e.2.x + e.1.x) + -x0 := by ring
  have e2 : |e.2.x + e.1.x| / 2 = 1 / 2 * |e.2.x + e.1.x| := by ring
  rw [e1, e2, sub_eq_add_neg (R.fl (1 / 2 * R.fl (e.2.x + e.1.x))) x0]
  exact ⟨p3, p2⟩

theorem firstAndSumF_growth {α : Type} {F f m : α → ℚ} {c : ℕ} {a : α} {l : List α}
    (hl : ∀ b ∈ a :: l, |F b - f b| ≤ growth c * m b ∧ |f b| ≤ m b) :
    |firstAndSumF R ((a :: l).map F) - ((a :: l).map f).sum| ≤ growth (c + (a :: l).length) * ((a :: l).map m).sum ∧
    |((a :: l).map f).sum| ≤ ((a :: l).map m).sum := by
  obtain ⟨h1, h2⟩ := hl a (by simp)
  obtain ⟨s1, s2⟩ := sumF_growth (R := R) l (fun b hb => hl b (List.mem_cons_of_mem _ hb))
  obtain ⟨g1, g2⟩ := add_growth h1 h2 s1 s2
  rw [max_eq_right (by omega)] at g1
  simp only [List.map_cons, List.sum_cons, List.length_cons, firstAndSumF]
  exact ⟨fl_growth (R := R) g1 g2, g2⟩

theorem signedAreaF_growth {p : Pt} {ps : List Pt} : ∃ a, signedAreaF R (p :: ps) = .ok a ∧
    |a - signedArea (p :: ps)| ≤ growth (5 + (p :: ps).length) * ((segmentTuples (p :: ps)).map (areaSize (minX p ps))).sum ∧
    |signedArea (p :: ps)| ≤ ((segmentTuples (p :: ps)).map (areaSize (minX p ps))).sum := by
  refine ⟨_, by rw [signedAreaF], ?_⟩
  have hs := signedAreaSum_eq (p :: ps) (by simp)
  simp only [signedAreaSum] at hs
  rw [foldl_add_eq_sum, zero_add] at hs
  rw [← Except.ok.inj hs, ← length_segmentTuples (p :: ps)]
  generalize hl : segmentTuples (p :: ps) = l
  cases l with
  | nil =>
    have := length_segmentTuples (p :: ps)
    rw [hl] at this; simp at this
  | cons e l => exact firstAndSumF_growth fun e _ => areaTermF_growth _ e

theorem isclockwise_sum (ps : List Pt) :
    ((segmentTuples ps).map fun e => (e.2.x - e.1.x) * (e.2.y + e.1.y)).sum = -2 * signedArea ps := by
  unfold signedArea
  rw [sum_segmentTuples' (fun a b : Pt => (b.x - a.x) * (b.y + a.y))]
  have : (fun a b : Pt => (b.x - a.x) * (b.y + a.y)) = fun a b => (-1) * cross a b +
      ((fun v : Pt => v.x * v.y) b - (fun v : Pt => v.x * v.y) a) := by
    funext a b; unfold cross; ring
  rw [this, ringSum_add, ringSum_mul, ringSum_telescope (fun v : Pt => v.x * v.y)]
  ring

theorem crossF_units {k B : ℤ} (hB : 2 * B ^ 2 ≤ 2 ^ 53) {e : Pt × Pt}
    (h1 : InUnits k B e.1.x ∧ InUnits k B e.1.y) (h2 : InUnits k B e.2.x ∧ InUnits k B e.2.y) :
    crossF R e = e.1.x * e.2.y - e.2.x * e.1.y ∧ InUnits (k + k) (2 * B ^ 2) (e.1.x * e.2.y - e.2.x * e.1.y) := by
  have p1 := h1.1.mul h2.2
  have p2 := h2.1.mul h1.2
  have d := p1.sub p2
  rw [show B * B + B * B = 2 * B ^ 2 by ring] at d
  refine ⟨?_, d⟩
  unfold crossF
  rw [p1.exact R (by nlinarith), p2.exact R (by nlinarith), d.exact R hB]

/-! ### C155 -/

/-- C155, whole units: if all coordinates are whole multiples of a power of two, at most `B` times, and `8 B²` times the number of
vertices, holes included, is at most `2 ^ 53`, then the area is exact. -/
theorem C155_area_units_partial (R : Rounding) {k B : ℤ} (p : Poly) (hne : p.NonEmpty)
    (h : ∀ ring ∈ ringsOf p, ∀ v ∈ ring, InUnits k B v.x ∧ InUnits k B v.y) (hb : 8 * B ^ 2 * vertexCount p ≤ 2 ^ 53) :
    areaF R p = .ok p.trueArea := (areaF_units p hne h hb).1

/-- C155, any coordinates: the area of a polygon without holes is off by at most the error of `n + 6` roundings in a sum of numbers as
large as the distance of the edges from the origin, times their height.

Missing for the full claim: an error that does not depend on the distance from the origin. -/
theorem C155_area_error_partial (R : Rounding) (p : Pt) (ps : List Pt) : ∃ a, areaF R (.mk (p :: ps) []) = .ok a ∧
    |(a - abs (signedArea (p :: ps)))| ≤ growth (6 + (p :: ps).length) * ((segmentTuples (p :: ps)).map (areaSize (minX p ps))).sum := by
  obtain ⟨a, h1, h2, h3⟩ := signedAreaF_growth (R := R) (p := p) (ps := ps)
  refine ⟨R.fl (|a| - 0), by rw [areaF, h1, areaSumF]; rfl, ?_⟩
  rw [sub_zero, show 6 + (p :: ps).length = 5 + (p :: ps).length + 1 by omega]
  refine fl_growth (le_trans (abs_abs_sub_abs_le _ _) h2) ?_
  rwa [abs_abs]

/-- C155, the orientation: `isclockwise` is right about every polygon whose area exceeds the rounding errors. -/
theorem C155_clockwise_clear_partial (R : Rounding) (ps : List Pt)
    (h : growth (3 + ps.length) * ((segmentTuples ps).map fun e => |(e.2.x - e.1.x) * (e.2.y + e.1.y)|).sum < 2 * |signedArea ps|) :
    isclockwiseF R ps = true ↔ signedArea ps < 0 := by
  obtain ⟨g, _⟩ := sumF_growth (R := R) (segmentTuples ps) (fun e _ => windTermF_growth (R := R) e)
  rw [isclockwise_sum, length_segmentTuples] at g
  unfold isclockwiseF
  rw [decide_eq_true_eq]
  have g' := abs_lt.1 (lt_of_le_of_lt g h)
  rcases abs_cases (signedArea ps) with ⟨e, c⟩ | ⟨e, c⟩
  · rw [e] at g'
    exact ⟨fun hp => by linarith [g'.2], fun hp => by linarith⟩
  · rw [e] at g'
    exact ⟨fun _ => c, fun _ => by linarith [g'.1]⟩

/-- C155, the orientation in whole units: `isclockwise` is right about every polygon, also about those without area. -/
theorem C155_clockwise_units_partial (R : Rounding) {k B : ℤ} (ps : List Pt) (h : ∀ v ∈ ps, InUnits k B v.x ∧ InUnits k B v.y)
    (hb : 4 * B ^ 2 * ps.length ≤ 2 ^ 53) : isclockwiseF R ps = true ↔ signedArea ps < 0 := by
  have ht : ∀ e ∈ segmentTuples ps, windTermF R e = (e.2.x - e.1.x) * (e.2.y + e.1.y) ∧
      InUnits (k + k) (4 * B ^ 2) ((e.2.x - e.1.x) * (e.2.y + e.1.y)) := by
    intro e he
    obtain ⟨m1, m2⟩ := mem_segmentTuples he
    have hB0 : 0 ≤ B := by obtain ⟨n, hn, _⟩ := (h _ m1).1; exact le_trans (abs_nonneg n) hn
    have hl : (1 : ℤ) ≤ ps.length := by
      have := List.length_pos_of_mem m1
      omega
    have hB : 4 * B ^ 2 ≤ 2 ^ 53 := by nlinarith [sq_nonneg B]
    have d := (h _ m2).1.sub (h _ m1).1
    have s := (h _ m2).2.add (h _ m1).2
    have p := d.mul s
    rw [show (B + B) * (B + B) = 4 * B ^ 2 by ring] at p
    refine ⟨?_, p⟩
    unfold windTermF
    rw [d.exact R (by nlinarith), s.exact R (by nlinarith), p.exact R hB]
  unfold isclockwiseF
  rw [decide_eq_true_eq, List.map_congr_left fun e he => (ht e he).1, (sumF_units (R := R) (k := k + k) (D := 4 * B ^ 2) (by positivity) (fun t h => by
    obtain ⟨e, he, rfl⟩ := List.mem_map.1 h
    exact (ht e he).2) (by rw [List.length_map, length_segmentTuples]; linarith)).1, isclockwise_sum]
  constructor <;> intro h <;> linarith

/-- C155, the centroid in whole units: it is the exact centroid, rounded once, if `4 B³` times the number of vertices is at most
`2 ^ 53`. -/
theorem C155_centroid_units_partial (R : Rounding) {k B : ℤ} (ps : List Pt) (h : ∀ v ∈ ps, InUnits k B v.x ∧ InUnits k B v.y)
    (hb : 4 * B ^ 3 * ps.length ≤ 2 ^ 53) (hb' : 12 * B ^ 2 * ps.length ≤ 2 ^ 53) :
    centroidF R ps = (centroid ps).map fun c => ⟨R.fl c.x, R.fl c.y⟩ := by
  have hc : ∀ e ∈ segmentTuples ps, (crossF R e = e.1.x * e.2.y - e.2.x * e.1.y ∧
      InUnits (k + k) (2 * B ^ 2) (e.1.x * e.2.y - e.2.x * e.1.y)) ∧
      (R.fl (R.fl (e.1.x + e.2.x) * crossF R e) = (e.1.x + e.2.x) * (e.1.x * e.2.y - e.2.x * e.1.y) ∧
      InUnits (k + (k + k)) (4 * B ^ 3) ((e.1.x + e.2.x) * (e.1.x * e.2.y - e.2.x * e.1.y))) ∧
      (R.fl (R.fl (e.1.y + e.2.y) * crossF R e) = (e.1.y + e.2.y) * (e.1.x * e.2.y - e.2.x * e.1.y) ∧
      InUnits (k + (k + k)) (4 * B ^ 3) ((e.1.y + e.2.y) * (e.1.x * e.2.y - e.2.x * e.1.y))) := by
    intro e he
    obtain ⟨m1, m2⟩ := mem_segmentTuples he
    have hB0 : 0 ≤ B := by obtain ⟨n, hn, _⟩ := (h _ m1).1; exact le_trans (abs_nonneg n) hn
    have hl : (1 : ℤ) ≤ ps.length := by
      have := List.length_pos_of_mem m1
      omega
    have hB : 12 * B ^ 2 ≤ 2 ^ 53 := by nlinarith [sq_nonneg B]
    have hB3 : 4 * B ^ 3 ≤ 2 ^ 53 := by nlinarith [pow_nonneg hB0 3]
    obtain ⟨c1, c2⟩ := crossF_units (R := R) (by linarith [sq_nonneg B]) (h _ m1) (h _ m2)
    have sx := (h _ m1).1.add (h _ m2).1
    have sy := (h _ m1).2.add (h _ m2).2
    have px := sx.mul c2
    have py := sy.mul c2
    rw [show (B + B) * (2 * B ^ 2) = 4 * B ^ 3 by ring] at px py
    refine ⟨⟨c1, c2⟩, ⟨?_, px⟩, ⟨?_, py⟩⟩
    · rw [sx.exact R (by nlinarith), c1, px.exact R hB3]
    · rw [sy.exact R (by nlinarith), c1, py.exact R hB3]
  by_cases hne : ps = []
  · subst hne
    unfold centroidF centroid
    simp [segmentTuples, sumF, R.zero]
  have hB0 : 0 ≤ B := by
    obtain ⟨v, hv⟩ := List.exists_mem_of_ne_nil _ hne
    obtain ⟨n, hn, _⟩ := (h v hv).1
    exact le_trans (abs_nonneg n) hn
  have hlen : ∀ f : Pt × Pt → ℚ, (((segmentTuples ps).map f).length : ℤ) = ps.length := by
    intro f; rw [List.length_map, length_segmentTuples]
  have hp : 0 ≤ B ^ 2 * (ps.length : ℤ) := by positivity
  obtain ⟨a1, a2⟩ := sumF_units (R := R) (k := k + k) (D := 2 * B ^ 2) (l := (segmentTuples ps).map fun e => e.1.x * e.2.y - e.2.x * e.1.y) (by positivity)
    (fun t h => by obtain ⟨e, he, rfl⟩ := List.mem_map.1 h; exact (hc e he).1.2) (by rw [hlen]; linarith)
  obtain ⟨x1, _⟩ := sumF_units (R := R) (k := k + (k + k)) (D := 4 * B ^ 3)
    (l := (segmentTuples ps).map fun e => (e.1.x + e.2.x) * (e.1.x * e.2.y - e.2.x * e.1.y))
    (by positivity) (fun t h => by obtain ⟨e, he, rfl⟩ := List.mem_map.1 h; exact (hc e he).2.1.2) (by rw [hlen]; linarith)
  obtain ⟨y1, _⟩ := sumF_units (R := R) (k := k + (k + k)) (D := 4 * B ^ 3)
    (l := (segmentTuples ps).map fun e => (e.1.y + e.2.y) * (e.1.x * e.2.y - e.2.x * e.1.y))
    (by positivity) (fun t h => by obtain ⟨e, he, rfl⟩ := List.mem_map.1 h; exact (hc e he).2.2.2) (by rw [hlen]; linarith)
  rw [hlen] at a2
  have ah := a2.half
  have a6 := ah.mul_int (m := 6) (C := 6) (by norm_num)
  unfold centroidF centroid
  dsimp only
  rw [List.map_congr_left fun e he => (hc e he).1.1, List.map_congr_left fun e he => (hc e he).2.1.1,
    List.map_congr_left fun e he => (hc e he).2.2.1, a1, x1, y1, ah.exact R (by linarith)]
  rw [mul_comm (6 : ℚ)]
  have a6' := a6.exact R (by linarith)
  push_cast at a6'
  rw [a6']
  by_cases c : 1 / 2 * ((segmentTuples ps).map fun e => e.1.x * e.2.y - e.2.x * e.1.y).sum * 6 = 0
  · rw [if_pos c, if_pos c]; rfl
  · rw [if_neg c, if_neg c]; rfl

/-- A square of one metre at coordinates with one decimal, as in a map projection, rounded to doubles. -/
def parcel : List Pt := [⟨rnd 555143.3, rnd 4997514.7⟩, ⟨rnd 555144.3, rnd 4997514.7⟩, ⟨rnd 555144.3, rnd 4997515.7⟩,
  ⟨rnd 555143.3, rnd 4997515.7⟩]

/-- C155 is violated: the centroid of a square of one metre in map coordinates is more than 800 m away from the square. -/
theorem C155_violated_centroid : ∃ c, centroidF double parcel = some c ∧ ∀ v ∈ parcel, 800 < c.y - v.y := by
  refine ⟨((centroidF double parcel).getD ⟨0, 0⟩), by decide +kernel, by decide +kernel⟩

/-- C155 is violated: a triangle with sides of some decimetres in map coordinates is said not to be clockwise, although it is. -/
theorem C155_violated_clockwise :
    let ps : List Pt := [⟨rnd 564173.7, rnd 4939837.8⟩, ⟨rnd 564173.5, rnd 4939838.0⟩, ⟨rnd 564173.6, rnd 4939837.9⟩]
    isclockwiseF double ps = false ∧ signedArea ps < 0 := by
  decide +kernel

/-- C155 is violated: a triangle whose width is one unit in the last place of the coordinates has no area. -/
theorem C155_violated_area :
    let ps : List Pt := [⟨1, 0⟩, ⟨1 + 1 / 2 ^ 52, 0⟩, ⟨1, 1⟩]
    (areaF double (.mk ps [])).toOption = some 0 ∧ signedArea ps = 1 / 2 ^ 53 := by
  decide +kernel

example : (areaF double holed).toOption = some 15 ∧ 8 * 4 ^ 2 * vertexCount holed ≤ 2 ^ 53 := by decide +kernel

example : holed.NonEmpty := by simp [holed, Poly.NonEmpty, Poly.AllNonEmpty]

/-- The vertices of `holed` are in whole units, and its rings are reported with the right orientation. -/
example : (∀ ring ∈ ringsOf holed, ∀ v ∈ ring, InUnits 0 4 v.x ∧ InUnits 0 4 v.y) ∧
    (∀ ring ∈ ringsOf holed, isclockwiseF double ring = false ∧ isclockwiseF double ring.reverse = true) ∧
    (∀ ring ∈ ringsOf holed, 4 * 4 ^ 3 * (ring.length : ℤ) ≤ 2 ^ 53 ∧ 12 * 4 ^ 2 * (ring.length : ℤ) ≤ 2 ^ 53) := by
  refine ⟨?_, by decide +kernel, by decide +kernel⟩
  have : ∀ ring ∈ ringsOf holed, ∀ v ∈ ring, (∃ n : Fin 5, v.x = n.val) ∧ ∃ n : Fin 5, v.y = n.val := by decide +kernel
  intro ring hr v hv
  obtain ⟨⟨n, e1⟩, m, e2⟩ := this ring hr v hv
  have b : ∀ n : Fin 5, |((n.val : ℤ))| ≤ 4 := by decide
  exact ⟨⟨n.val, b n, by rw [e1]; simp⟩, ⟨m.val, b m, by rw [e2]; simp⟩⟩

/-- In map coordinates, the area of a square of one metre and its orientation are right. -/
example : (areaF double (.mk parcel [])).toOption = some 1 ∧ isclockwiseF double parcel = false ∧
    growth (3 + parcel.length) * ((segmentTuples parcel).map fun e => |(e.2.x - e.1.x) * (e.2.y + e.1.y)|).sum
      < 2 * |signedArea parcel| := by decide +kernel

end Karta.Float
