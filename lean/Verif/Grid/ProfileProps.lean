import Verif.Grid.Profile
import Verif.Grid.SampleProps
import Verif.Vec.AlongProps
import Verif.Table.Props

/-!
# C130, C131: sampling by position and along a line
-/

namespace Karta.Profile
open Karta Karta.Grid Karta.Tab Karta.Along

variable {C κ β R : Type _} [DecidableEq C]

/-! ### Specification -/

/-- The conversion gives the position `f c c' p` for the position `p`, for one position and for sequences. -/
structure Converts (cv : Conversion C κ) (f : C → C → κ × κ → κ × κ) : Prop where
  one : ∀ c c' x y, c ≠ c' → cv.one c c' x y = .ok (f c c' (x, y))
  many : ∀ c c' (ps : List (κ × κ)), c ≠ c' →
    cv.many c c' (ps.map Prod.fst) (ps.map Prod.snd) = .ok ((ps.map (f c c')).map Prod.fst, (ps.map (f c c')).map Prod.snd)

/-- The position, in the system `own`, of a position given in the system `c`. -/
def place (f : C → C → κ × κ → κ × κ) (own c : C) (p : κ × κ) : κ × κ := if c = own then p else f c own p

/-- The sampling method asked for. -/
def byMethod (near bil : Query κ → Except Err R) : Meth → Query κ → Except Err R
  | .nearest => near
  | .bilinear => bil
  | .unknown => fun _ => .error .valueError

theorem zip_fst_snd (ps : List (κ × κ)) : (ps.map Prod.fst).zip (ps.map Prod.snd) = ps := by
  induction ps with
  | nil => rfl
  | cons p ps ih => simp [ih]

theorem map_place_self (f : C → C → κ × κ → κ × κ) (own : C) (ps : List (κ × κ)) : ps.map (place f own own) = ps := by
  have : place f own own = id := by funext p; simp [place]
  rw [this, List.map_id]

theorem map_place_ne (f : C → C → κ × κ → κ × κ) {own c : C} (h : c ≠ own) (ps : List (κ × κ)) :
    ps.map (place f own c) = ps.map (f c own) := by
  apply List.map_congr_left; intro p _; simp [place, h]

/-! ### C130 -/

/-- C130.  A Point is sampled where it lies, in whatever system its coordinates are given. -/
theorem C130_point_partial (cv : Conversion C κ) (f : C → C → κ × κ → κ × κ) (h : Converts cv f) (near bil : Query κ → Except Err R)
    (own : C) (crs : Option C) (m : Meth) (x y : κ) (z : Option κ) (c : C) :
    sample cv near bil own crs m (.point x y z c) = byMethod near bil m (.one (place f own c (x, y))) := by
  unfold sample locate vertex place
  dsimp only
  by_cases hc : own = c
  · subst hc
    rw [if_pos rfl, if_pos rfl]
    cases m <;> rfl
  · rw [if_neg hc, if_neg (fun e => hc e.symm), h.one _ _ _ _ (fun e => hc e.symm)]
    cases m <;> rfl

/-- C130.  A Multipoint is sampled at its vertices, in order. -/
theorem C130_multipoint_partial (cv : Conversion C κ) (f : C → C → κ × κ → κ × κ) (h : Converts cv f)
    (near bil : Query κ → Except Err R) (own : C) (crs : Option C) (m : Meth) (vs : List (κ × κ)) (c : C) :
    sample cv near bil own crs m (.multipoint vs c) = byMethod near bil m (.many (vs.map (place f own c))) := by
  unfold sample locate coords
  dsimp only
  by_cases hc : own = c
  · subst hc
    rw [if_neg (fun e : own ≠ own => e rfl), map_place_self]
    dsimp only [Except.map]
    rw [zip_fst_snd]
    cases m <;> rfl
  · rw [if_pos hc, h.many _ _ _ (fun e => hc e.symm), map_place_ne f (fun e => hc e.symm)]
    dsimp only [Except.map]
    rw [zip_fst_snd]
    cases m <;> rfl

/-- C130.  Sequences of coordinates are sampled at the positions they denote in the grid's system, or in another one named by `crs`. -/
theorem C130_arrays_partial (cv : Conversion C κ) (f : C → C → κ × κ → κ × κ) (h : Converts cv f)
    (near bil : Query κ → Except Err R) (own : C) (crs : Option C) (hcrs : crs ≠ some own) (m : Meth) (ps : List (κ × κ)) :
    sample cv near bil own crs m (.arrays (ps.map Prod.fst) (ps.map Prod.snd)) =
      byMethod near bil m (.many (ps.map (place f own (crs.getD own)))) := by
  unfold sample locate
  cases crs with
  | none =>
    dsimp only
    rw [if_neg (by simp), zip_fst_snd, Option.getD_none, map_place_self]
    cases m <;> rfl
  | some c =>
    have hc : c ≠ own := fun e => hcrs (e ▸ rfl)
    dsimp only
    rw [h.many _ _ _ hc, Option.getD_some, map_place_ne f hc]
    dsimp only
    rw [if_neg (by simp), zip_fst_snd]
    cases m <;> rfl

/-- C130.  Other geometries, a single argument and sequences of different lengths are refused with TypeError, an unknown method with
ValueError. -/
theorem C130_refused (cv : Conversion C κ) (near bil : Query κ → Except Err R) (own : C) (crs : Option C) (m : Meth) (xs ys : List κ)
    (x y : κ) (z : Option κ) :
    sample cv near bil own crs m .geometry = .error .typeError ∧ sample cv near bil own crs m .lone = .error .typeError ∧
    (xs.length ≠ ys.length → sample cv near bil own none m (.arrays xs ys) = .error .typeError) ∧
    sample cv near bil own crs .unknown (.point x y z own) = .error .valueError := by
  refine ⟨rfl, rfl, ?_, ?_⟩
  · intro h
    unfold sample locate
    dsimp only
    rw [if_pos h]
  · unfold sample locate vertex
    dsimp only
    rw [if_pos rfl]; rfl

/-- C130, nearest neighbour: the value at a Point given in any system is the value of the cell that contains its position. -/
theorem C130_nearest_point {α : Type _} (cv : Conversion C ℚ) (f : C → C → ℚ × ℚ → ℚ × ℚ) (h : Converts cv f) {g : RGrid α} {H W : Nat}
    {Ps : List (Int → Int → α)} (hg : g.Holds H W Ps) (hT : g.t.Regular) (garb : α) (near bil : Query ℚ → Except Err (Nearest α))
    (hnear : ∀ p r, g.sampleNearest1 garb p.1 p.2 = some r → near (.one p) = r) (own c : C) (crs : Option C) (x y : ℚ) (z : Option ℚ) :
    ∃ i j : Int, g.t.InClosedCell i j (place f own c (x, y)) ∧
      ((0 ≤ i ∧ i < H ∧ 0 ≤ j ∧ j < W ∧ sample cv near bil own crs .nearest (.point x y z c) = .ok (.values (Ps.map fun P => P i j))) ∨
       (¬ (0 ≤ i ∧ i < H ∧ 0 ≤ j ∧ j < W) ∧ sample cv near bil own crs .nearest (.point x y z c) = .ok (.nodata g.nodata))) := by
  rw [C130_point_partial cv f h]
  obtain ⟨i, j, hc, _, hv⟩ := C17_scalar hg hT garb (place f own c (x, y))
  refine ⟨i, j, hc, ?_⟩
  rcases hv with ⟨h1, h2, h3, h4, e⟩ | ⟨h1, e⟩
  · exact Or.inl ⟨h1, h2, h3, h4, hnear _ _ e⟩
  · exact Or.inr ⟨h1, hnear _ _ e⟩

/-- C130, violated: two numbers, which the documentation of the result mentions as scalar input, are refused. -/
theorem C130_violated_scalars (cv : Conversion C κ) (near bil : Query κ → Except Err R) (own : C) (m : Meth) (x y : κ) :
    sample cv near bil own none m (.scalars x y) = .error .typeError := rfl

/-- C130, violated: naming the grid's own system makes the call fail if coordinates of that system cannot be converted, as is the case
for Cartesian coordinates, though no conversion is needed. -/
theorem C130_violated_own_system (cv : Conversion C κ) (near bil : Query κ → Except Err R) (own : C) (m : Meth) (xs ys : List κ)
    (hcart : cv.many own own xs ys = .error .notImplemented) :
    sample cv near bil own (some own) m (.arrays xs ys) = .error .notImplemented := by
  unfold sample locate
  dsimp only
  rw [hcart]

/-- A conversion between two systems, of which the second has its axes swapped. -/
def swapConversion : Conversion Bool ℚ where
  one := fun c c' x y => if c = c' then .error .notImplemented else .ok (y, x)
  many := fun c c' xs ys => if c = c' then .error .notImplemented else .ok (ys, xs)

theorem swapConversion_converts : Converts swapConversion (fun _ _ p => (p.2, p.1)) where
  one := fun c c' x y h => by unfold swapConversion; dsimp only; rw [if_neg h]
  many := fun c c' ps h => by
    unfold swapConversion; dsimp only; rw [if_neg h, List.map_map, List.map_map]; rfl

example : sample swapConversion (R := List (ℚ × ℚ)) (fun _ => .ok []) (fun q => match q with | .one p => .ok [p] | .many ps => .ok ps)
    true none .bilinear (.multipoint [(1, 2), (3, 4)] false) = .ok [(2, 1), (4, 3)] := by
  rw [C130_multipoint_partial _ _ swapConversion_converts]; rfl

example : sample swapConversion (R := Unit) (fun _ => .ok ()) (fun _ => .ok ()) true (some true) .nearest (.arrays [1] [2]) =
    .error .notImplemented := C130_violated_own_system _ _ _ _ _ _ _ rfl

/-! ### C131 -/

theorem repr_inj {a b : Nat} (h : Nat.repr a = Nat.repr b) : a = b := by
  have e : Nat.toDigits 10 a = Nat.toDigits 10 b := by
    unfold Nat.repr at h
    exact String.ofList_injective h
  have := congrArg (fun l => Nat.ofDigitChars 10 l 0) e
  simpa [Nat.ofDigitChars_toDigits] using this

theorem bandName_inj {a b : Nat} (h : bandName a = bandName b) : a = b := by
  unfold bandName at h
  apply repr_inj
  have := congrArg String.toList h
  rw [String.toList_append, String.toList_append] at this
  exact String.toList_inj.mp (List.append_cancel_left this)

/-- The column assignments of the loop. -/
def history (z : List (List β)) (i n : Nat) : List (String × List (Option β)) :=
  (List.range' i n).map fun b => (bandName b, ((z[b]?).getD []).map some)

theorem setBands_eq (z : List (List β)) : ∀ (n i : Nat) (t : Table String β), i + n ≤ z.length →
    setBands z i n t = runSets (history z i n) t
  | 0, _, _, _ => rfl
  | n + 1, i, t, h => by
    unfold setBands history
    rw [List.range'_succ, List.map_cons, List.getElem?_eq_getElem (by omega)]
    unfold runSets
    dsimp only [Option.getD_some]
    cases t.setfield (bandName i) (z[i].map some) with
    | error e => rfl
    | ok t' => exact setBands_eq z n (i + 1) t' (by omega)

theorem lastAssigned_history (z : List (List β)) : ∀ (n i b : Nat), i ≤ b → b < i + n →
    lastAssigned (bandName b) (history z i n) = some (((z[b]?).getD []).map some)
  | 0, _, _, _, _ => by omega
  | n + 1, i, b, h1, h2 => by
    unfold history
    rw [List.range'_succ, List.map_cons]
    unfold lastAssigned
    by_cases hb : i = b
    · subst hb
      have : lastAssigned (bandName i) ((List.range' (i + 1) n).map fun b => (bandName b, ((z[b]?).getD []).map some)) = none := by
        have key : ∀ m j, i < j → lastAssigned (bandName i) ((List.range' j m).map fun b => (bandName b, ((z[b]?).getD []).map some)) = none := by
          intro m
          induction m with
          | zero => intro j _; rfl
          | succ m ih =>
            intro j hj
            rw [List.range'_succ, List.map_cons]
            unfold lastAssigned
            rw [ih (j + 1) (by omega)]
            dsimp only
            rw [if_neg (fun e => by have := bandName_inj e; omega)]
        exact key n (i + 1) (by omega)
      rw [this]
      dsimp only
      rw [if_pos rfl]
    · have := lastAssigned_history z n (i + 1) b (by omega) (by omega)
      unfold history at this
      rw [this]

theorem setBands_spec (z : List (List β)) (n m : Nat) (hm : 0 < m) (hz : z.length = n) (hl : ∀ vs ∈ z, vs.length = m) :
    ∃ t, setBands z 0 n (Table.ofSize [] m) = .ok t ∧ t.WF ∧ t.data.length = m ∧
      ∀ b vs, z[b]? = some vs → t.getfield (bandName b) = .ok (vs.map some) := by
  rw [setBands_eq z n 0 _ (by omega)]
  have hlen : (Table.ofSize [] m : Table String β).data.length = m := by simp [Table.ofSize]
  obtain ⟨t, e, hw, hd, hg⟩ := C28_setfield_history (Table.ofSize [] m : Table String β) (Table.wf_ofSize m) (by rw [hlen]; exact hm)
    (history z 0 n) (by
      intro p hp
      unfold history at hp
      rw [List.mem_map] at hp
      obtain ⟨b, hb, rfl⟩ := hp
      rw [List.mem_range'_1] at hb
      rw [List.getElem?_eq_getElem (by omega), hlen]
      simp only [Option.getD_some, List.length_map]
      exact hl _ (List.getElem_mem _))
  refine ⟨t, e, hw, by rw [hd, hlen], ?_⟩
  intro b vs hb
  have hbl := (List.getElem?_eq_some_iff.mp hb).1
  rw [hg, lastAssigned_history z n 0 b (by omega) (by omega), hb]
  rfl

/-- C131.  For a positive resolution and a line whose segments after the first are at least as long as the resolution, the points
returned are exactly the positions on the line at multiples of the resolution, the values returned are the samples of the grid at these
points, and the table of the points has a column `band_b` for each band with the samples of that band. -/
theorem C131_profile_partial (S : List (ℝ × ℝ) → Except Err (List (List β))) (T : Xform) (nb : Nat) (res : Option ℝ) (dx : ℝ)
    (hres : res.getD (min (T.dx : ℝ) (T.dy : ℝ)) = dx) (hdx : 0 < dx) (a : ℝ × ℝ) (r : List (ℝ × ℝ)) (hlong : LongSegments dx r) (fuel : Nat)
    (hf : lineLength (a :: r) + 2 * dx < fuel * dx)
    (hS : ∀ pts, ∃ z, S pts = .ok z ∧ z.length = nb ∧ ∀ vs ∈ z, vs.length = pts.length) :
    ∃ P, profile S T nb res fuel (a :: r) = some (.ok P) ∧
      (∀ (k : Nat) (p : ℝ × ℝ), P.points[k]? = some p → At (a :: r) (k * dx) p) ∧
      (∀ k : Nat, k < P.points.length ↔ k * dx ≤ lineLength (a :: r)) ∧
      S P.points = .ok P.values ∧ P.data.data.length = P.points.length ∧
      ∀ b vs, P.values[b]? = some vs → P.data.getfield ("band_" ++ Nat.repr b) = .ok (vs.map some) := by
  have hd : res.getD (defaultResolution T : ℝ) = dx := by
    rw [← hres]; congr 1; unfold defaultResolution; push_cast; rfl
  obtain ⟨l, hl, hat, hcount⟩ := C93_spacing_partial dx hdx a r hlong fuel hf
  obtain ⟨z, hz, hzl, hzr⟩ := hS l
  have hpos : 0 < l.length := (hcount 0).mpr (by rw [Nat.cast_zero, zero_mul]; exact lineLength_nonneg _)
  obtain ⟨t, ht, _, htl, htf⟩ := setBands_spec z nb l.length hpos hzl hzr
  refine ⟨⟨l, t, z⟩, ?_, hat, hcount, hz, htl, htf⟩
  unfold profile
  rw [hd, hl, Option.map_some, hz]
  dsimp only
  have : (if nb ≠ 1 then nb else 1) = nb := by
    by_cases h : nb = 1
    · rw [if_neg (fun e => e h), h]
    · rw [if_pos h]
  rw [this, ht]

theorem segLoop_backwards (dx : ℝ) (hdx : dx < 0) (a b : ℝ × ℝ) (hab : 0 < gap a b) :
    ∀ (fuel : Nat) (pos : ℝ) (w : Walker), pos ≤ 0 → w.remainder = 0 → segLoop dx a b fuel pos w = none
  | 0, _, _, _, _ => rfl
  | fuel + 1, pos, w, hp, hr => by
    unfold segLoop
    rw [dist_gap, dist_gap, if_pos (lt_of_le_of_lt hp hab), if_pos (le_trans (le_of_lt hdx) (gap_nonneg _ _)), walkAlong_eq _ _ _ _ hab]
    dsimp only
    apply segLoop_backwards dx hdx a b hab fuel
    · rw [hr]; linarith
    · rfl

theorem lineLoop_backwards (dx : ℝ) (hdx : dx < 0) (fuel : Nat) : ∀ (r : List (ℝ × ℝ)) (a : ℝ × ℝ) (w : Walker), w.remainder = 0 →
    0 < lineLength (a :: r) → lineLoop dx (fuel + 1) (a :: r) w = none
  | [], a, w, _, hL => by simp [lineLength] at hL
  | b :: r, a, w, hr, hL => by
    unfold lineLoop
    by_cases hab : 0 < gap a b
    · rw [segLoop_backwards dx hdx a b hab _ _ _ (le_refl _) hr]
    · have h0 : gap a b = 0 := le_antisymm (not_lt.mp hab) (gap_nonneg _ _)
      unfold segLoop
      rw [dist_gap, h0, if_neg (lt_irrefl _)]
      dsimp only
      exact lineLoop_backwards dx hdx fuel r b w hr (by rw [lineLength, h0, zero_add] at hL; exact hL)

/-- C131, violated: on a grid whose rows run south (or whose columns run west) the default resolution is negative and `profile` never
returns, along any line of positive length. -/
theorem C131_violated_negative_spacing (S : List (ℝ × ℝ) → Except Err (List (List β))) (T : Xform) (hT : T.dx < 0 ∨ T.dy < 0) (nb fuel : Nat)
    (a : ℝ × ℝ) (r : List (ℝ × ℝ)) (hL : 0 < lineLength (a :: r)) : profile S T nb none fuel (a :: r) = none := by
  have hneg : ((defaultResolution T : ℚ) : ℝ) < 0 := by
    have : defaultResolution T < 0 := by
      unfold defaultResolution
      rcases hT with h | h
      · exact lt_of_le_of_lt (min_le_left _ _) h
      · exact lt_of_le_of_lt (min_le_right _ _) h
    exact_mod_cast this
  unfold profile toPoints
  rw [Option.getD_none]
  cases fuel with
  | zero =>
    cases r with
    | nil => simp [lineLength] at hL
    | cons b r => rfl
  | succ fuel =>
    dsimp only
    rw [lineLoop_backwards _ hneg fuel r a ⟨0, a, [a]⟩ rfl hL]
    rfl

example : ∃ P, profile (fun pts => .ok [pts.map fun p => p.1]) ⟨0, 0, 2, 1, 0, 0⟩ 1 none 20 [(0, 0), (3, 4)] = some (.ok P) ∧
    P.data.getfield "band_0" = .ok ((P.points.map fun p => p.1).map some) := by
  have hL : lineLength [((0 : ℝ), (0 : ℝ)), (3, 4)] = 5 := by simp [lineLength, gap_345]
  obtain ⟨P, h1, -, -, h4, -, h6⟩ := C131_profile_partial (fun pts => .ok [pts.map fun p => p.1]) ⟨0, 0, 2, 1, 0, 0⟩ 1 none 1
    (by norm_num) one_pos (0, 0) [(3, 4)] trivial 20 (by rw [hL]; norm_num) (fun pts => ⟨_, rfl, rfl, by simp⟩)
  refine ⟨P, h1, ?_⟩
  have hv : P.values = [P.points.map fun p => p.1] := (Except.ok.inj h4).symm
  have := h6 0 (P.points.map fun p => p.1) (by rw [hv]; rfl)
  rw [show "band_" ++ Nat.repr 0 = "band_0" by decide] at this
  exact this

end Karta.Profile
