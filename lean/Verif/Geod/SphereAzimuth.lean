import Verif.Geod.SphereProps
import Verif.Geod.HullSph

/-!
Model of `sphere_azimuth` and of `recurse_iterables` (karta/geodesy.py 19-25, 110-113), and property C179.  Real numbers; rounding is not
modelled, and the tangent of the latitude 90 is not defined.
-/

namespace Karta.Geod.SphAz
open Karta Karta.Geod Karta.Geod.Sphere

/-! ### Model -/

/-- `_radians` (geodesy.py 73-74). -/
noncomputable def radians (d : ℝ) : ℝ := d * Real.pi / 180

/-- `sphere_azimuth` of numbers (geodesy.py 111-113). -/
noncomputable def sphereAzimuth (lon1 lat1 lon2 lat2 : ℝ) : ℝ :=
  let dlon := lon2 - lon1
  atan2 (Real.sin (radians dlon))
    (Real.cos (radians lat1) * Real.tan (radians lat2) - Real.sin (radians lat1) * Real.cos (radians dlon))

/-- An argument: a number or a sequence of numbers. -/
inductive Arg (α : Type) where
  | num (v : α)
  | seq (l : List α)

/-- An answer: a number or an array of numbers. -/
inductive Ans (β : Type) where
  | num (v : β)
  | arr (l : List β)
  deriving DecidableEq

/-- `zip(*args)`: rows as long as the shortest argument; TypeError if an argument is a number. -/
def rows {α : Type} : List (Arg α) → Except Err (List (List α))
  | [] => .ok []
  | [.seq l] => .ok (l.map fun v => [v])
  | .num _ :: _ => .error .typeError
  | .seq l :: rest => (rows rest).map fun rs => List.zipWith (· :: ·) l rs

/-- The numbers, if all arguments are; arithmetic of numbers and sequences raises TypeError. -/
def nums {α : Type} : List (Arg α) → Except Err (List α)
  | [] => .ok []
  | .num v :: rest => (nums rest).map (v :: ·)
  | .seq _ :: _ => .error .typeError

/-- `recurse_iterables(f)` (geodesy.py 19-25). -/
def recurse {α β : Type} (f : List α → Except Err β) (args : List (Arg α)) : Except Err (Ans β) :=
  match args with
  | [] => .error .indexError
  | .seq l :: rest => (rows (.seq l :: rest)).bind fun rs => (rs.mapM f).map Ans.arr
  | .num v :: rest => ((nums (.num v :: rest)).bind f).map Ans.num

/-- The decorated function (geodesy.py 110-113); another number of arguments raises TypeError. -/
noncomputable def azimuthArgs : List ℝ → Except Err ℝ
  | [lon1, lat1, lon2, lat2] => .ok (sphereAzimuth lon1 lat1 lon2 lat2)
  | _ => .error .typeError

/-! ### Specification -/

/-- The direction to the north at a position on the unit sphere (radians). -/
noncomputable def northAt (lon lat : ℝ) : EuclideanSpace ℝ (Fin 3) :=
  !₂[-(Real.sin lat * Real.cos lon), -(Real.sin lat * Real.sin lon), Real.cos lat]

/-- The direction to the east. -/
noncomputable def eastAt (lon : ℝ) : EuclideanSpace ℝ (Fin 3) := !₂[-Real.sin lon, Real.cos lon, 0]

/-- Where the great circle that leaves a position with an azimuth is after an arc `s`: positions in degrees, azimuth and arc in radians. -/
noncomputable def along (lon lat azimuth s : ℝ) : EuclideanSpace ℝ (Fin 3) :=
  Real.cos s • onSphere (lon * Real.pi / 180) (lat * Real.pi / 180) +
    Real.sin s • (Real.cos azimuth • northAt (lon * Real.pi / 180) (lat * Real.pi / 180) + Real.sin azimuth • eastAt (lon * Real.pi / 180))

/-- The position in degrees. -/
noncomputable def place (lon lat : ℝ) : EuclideanSpace ℝ (Fin 3) := onSphere (lon * Real.pi / 180) (lat * Real.pi / 180)

/-! ### Lemmas -/

theorem cos_lat_pos {lat : ℝ} (h : |lat| < 90) : 0 < Real.cos (lat * Real.pi / 180) := by
  have hp := Real.pi_pos
  obtain ⟨h1, h2⟩ := abs_lt.1 h
  exact Real.cos_pos_of_mem_Ioo ⟨by nlinarith, by nlinarith⟩

/-- The components of a position along the directions at another one. -/
theorem components (l1 p1 l2 p2 : ℝ) : onSphere l2 p2 =
    (Real.sin p1 * Real.sin p2 + Real.cos p1 * Real.cos p2 * Real.cos (l1 - l2)) • onSphere l1 p1 +
      ((Real.cos p1 * Real.sin p2 - Real.sin p1 * Real.cos p2 * Real.cos (l2 - l1)) • northAt l1 p1 +
        (Real.cos p2 * Real.sin (l2 - l1)) • eastAt l1) := by
  have h1 := Real.sin_sq_add_cos_sq p1
  have h2 := Real.sin_sq_add_cos_sq l1
  ext i
  fin_cases i
  · simp [onSphere, northAt, eastAt, Real.cos_sub, Real.sin_sub]
    linear_combination (-(Real.cos p2 * Real.cos l2 * Real.cos l1 ^ 2) - Real.cos p2 * Real.sin l2 * Real.sin l1 * Real.cos l1) * h1 + (-(Real.cos p2 * Real.cos l2)) * h2
  · simp [onSphere, northAt, eastAt, Real.cos_sub, Real.sin_sub]
    linear_combination (-(Real.cos p2 * Real.sin l2 * Real.sin l1 ^ 2) - Real.cos p2 * Real.cos l2 * Real.sin l1 * Real.cos l1) * h1 + (-(Real.cos p2 * Real.sin l2)) * h2
  · simp [onSphere, northAt, eastAt, Real.cos_sub, Real.sin_sub]
    linear_combination (-Real.sin p2) * h1

/-- The sum of the squares of the components. -/
theorem components_sq (l1 p1 l2 p2 : ℝ) :
    (Real.sin p1 * Real.sin p2 + Real.cos p1 * Real.cos p2 * Real.cos (l1 - l2)) ^ 2 +
      ((Real.cos p1 * Real.sin p2 - Real.sin p1 * Real.cos p2 * Real.cos (l2 - l1)) ^ 2 + (Real.cos p2 * Real.sin (l2 - l1)) ^ 2) = 1 := by
  rw [show l1 - l2 = -(l2 - l1) by ring, Real.cos_neg]
  have h1 := Real.sin_sq_add_cos_sq p1
  have h2 := Real.sin_sq_add_cos_sq p2
  have h3 := Real.sin_sq_add_cos_sq (l2 - l1)
  linear_combination (Real.sin p2 ^ 2 + Real.cos p2 ^ 2 * Real.cos (l2 - l1) ^ 2) * h1 + h2 + Real.cos p2 ^ 2 * h3

theorem scaled {c : ℝ} (hc : 0 < c) (y x : ℝ) : atan2 (c * y) (c * x) = atan2 y x := by
  have h : (⟨c * x, c * y⟩ : ℂ) = (c : ℂ) * ⟨x, y⟩ := by apply Complex.ext <;> simp
  unfold atan2
  rw [h, Complex.arg_real_mul _ hc]

/-- The azimuth is the polar angle of the components. -/
theorem azimuth_eq (lon1 lat1 lon2 lat2 : ℝ) (h : |lat2| < 90) : sphereAzimuth lon1 lat1 lon2 lat2 =
    atan2 (Real.cos (lat2 * Real.pi / 180) * Real.sin (lon2 * Real.pi / 180 - lon1 * Real.pi / 180))
      (Real.cos (lat1 * Real.pi / 180) * Real.sin (lat2 * Real.pi / 180) -
        Real.sin (lat1 * Real.pi / 180) * Real.cos (lat2 * Real.pi / 180) * Real.cos (lon2 * Real.pi / 180 - lon1 * Real.pi / 180)) := by
  have hc := cos_lat_pos h
  have hl : (lon2 - lon1) * Real.pi / 180 = lon2 * Real.pi / 180 - lon1 * Real.pi / 180 := by ring
  have ht : Real.cos (lat2 * Real.pi / 180) * Real.tan (lat2 * Real.pi / 180) = Real.sin (lat2 * Real.pi / 180) := by
    rw [mul_comm, Real.tan_mul_cos hc.ne']
  unfold sphereAzimuth radians
  dsimp only
  rw [← scaled hc, hl]
  congr 1
  linear_combination Real.cos (lat1 * Real.pi / 180) * ht

theorem rows_four {α : Type} (a b c d : List α) : rows [.seq a, .seq b, .seq c, .seq d] =
    .ok (List.zipWith (· :: ·) a (List.zipWith (· :: ·) b (List.zipWith (· :: ·) c (d.map fun v => [v])))) := rfl

theorem mapM_total {α β : Type} {f : α → Except Err β} {g : α → β} : ∀ (l : List α), (∀ a ∈ l, f a = .ok (g a)) → l.mapM f = .ok (l.map g) := by
  intro l
  induction l with
  | nil => intro _; rfl
  | cons a l ih =>
    intro h
    rw [List.mapM_cons, h a List.mem_cons_self, ih fun b hb => h b (List.mem_cons_of_mem _ hb)]
    rfl

/-! ### Theorems -/

/-- C179: the great circle that leaves the first position with the azimuth returned passes through the second, after an arc that is the
angle between the two at the centre, whatever the two positions are, if the second is not a pole. -/
theorem C179_reaches (lon1 lat1 lon2 lat2 : ℝ) (h : |lat2| < 90) :
    along lon1 lat1 (sphereAzimuth lon1 lat1 lon2 lat2) (InnerProductGeometry.angle (place lon1 lat1) (place lon2 lat2)) = place lon2 lat2 := by
  have hb := inner_bounds (lon1 * Real.pi / 180) (lat1 * Real.pi / 180) (lon2 * Real.pi / 180) (lat2 * Real.pi / 180)
  have hs := components_sq (lon1 * Real.pi / 180) (lat1 * Real.pi / 180) (lon2 * Real.pi / 180) (lat2 * Real.pi / 180)
  have hq := components (lon1 * Real.pi / 180) (lat1 * Real.pi / 180) (lon2 * Real.pi / 180) (lat2 * Real.pi / 180)
  have ha : InnerProductGeometry.angle (place lon1 lat1) (place lon2 lat2) = _ :=
    centralAngle_eq (lon1 * Real.pi / 180) (lat1 * Real.pi / 180) (lon2 * Real.pi / 180) (lat2 * Real.pi / 180)
  unfold along
  rw [ha, azimuth_eq lon1 lat1 lon2 lat2 h, Real.cos_arccos hb.1 hb.2, Real.sin_arccos, place, hq]
  generalize Real.sin (lat1 * Real.pi / 180) * Real.sin (lat2 * Real.pi / 180) + Real.cos (lat1 * Real.pi / 180) *
    Real.cos (lat2 * Real.pi / 180) * Real.cos (lon1 * Real.pi / 180 - lon2 * Real.pi / 180) = u at *
  generalize Real.cos (lat2 * Real.pi / 180) * Real.sin (lon2 * Real.pi / 180 - lon1 * Real.pi / 180) = e at *
  generalize Real.cos (lat1 * Real.pi / 180) * Real.sin (lat2 * Real.pi / 180) - Real.sin (lat1 * Real.pi / 180) *
    Real.cos (lat2 * Real.pi / 180) * Real.cos (lon2 * Real.pi / 180 - lon1 * Real.pi / 180) = n at *
  have hr : 1 - u ^ 2 = n ^ 2 + e ^ 2 := by linarith
  rw [hr, smul_add, smul_smul, smul_smul, atan2_cos, atan2_sin]

/-- C179: no other direction does, unless the positions are the same or opposite. -/
theorem C179_only (lon1 lat1 lon2 lat2 az s : ℝ) (h : |lat2| < 90) (haz : -Real.pi < az ∧ az ≤ Real.pi) (hs : 0 < s ∧ s < Real.pi)
    (he : along lon1 lat1 az s = place lon2 lat2) : az = sphereAzimuth lon1 lat1 lon2 lat2 := by
  have hsin := Real.sin_pos_of_pos_of_lt_pi hs.1 hs.2
  have hq := components (lon1 * Real.pi / 180) (lat1 * Real.pi / 180) (lon2 * Real.pi / 180) (lat2 * Real.pi / 180)
  have o1 := Real.sin_sq_add_cos_sq (lat1 * Real.pi / 180)
  have o2 := Real.sin_sq_add_cos_sq (lon1 * Real.pi / 180)
  have key : Real.sin s * Real.cos az = Real.cos (lat1 * Real.pi / 180) * Real.sin (lat2 * Real.pi / 180) - Real.sin (lat1 * Real.pi / 180) *
      Real.cos (lat2 * Real.pi / 180) * Real.cos (lon2 * Real.pi / 180 - lon1 * Real.pi / 180) ∧
      Real.sin s * Real.sin az = Real.cos (lat2 * Real.pi / 180) * Real.sin (lon2 * Real.pi / 180 - lon1 * Real.pi / 180) := by
    rw [place, hq, along] at he
    generalize Real.sin (lat1 * Real.pi / 180) * Real.sin (lat2 * Real.pi / 180) + Real.cos (lat1 * Real.pi / 180) *
      Real.cos (lat2 * Real.pi / 180) * Real.cos (lon1 * Real.pi / 180 - lon2 * Real.pi / 180) = u at *
    generalize Real.cos (lat2 * Real.pi / 180) * Real.sin (lon2 * Real.pi / 180 - lon1 * Real.pi / 180) = e at *
    generalize Real.cos (lat1 * Real.pi / 180) * Real.sin (lat2 * Real.pi / 180) - Real.sin (lat1 * Real.pi / 180) *
      Real.cos (lat2 * Real.pi / 180) * Real.cos (lon2 * Real.pi / 180 - lon1 * Real.pi / 180) = n at *
    have e0 := congrArg (fun v : EuclideanSpace ℝ (Fin 3) => v 0) he
    have e1 := congrArg (fun v : EuclideanSpace ℝ (Fin 3) => v 1) he
    have e2 := congrArg (fun v : EuclideanSpace ℝ (Fin 3) => v 2) he
    simp [onSphere, northAt, eastAt] at e0 e1 e2
    generalize Real.cos (lat1 * Real.pi / 180) = cp at *
    generalize Real.sin (lat1 * Real.pi / 180) = sp at *
    generalize Real.cos (lon1 * Real.pi / 180) = cl at *
    generalize Real.sin (lon1 * Real.pi / 180) = sl at *
    generalize Real.sin s = S at *
    constructor
    · linear_combination (-sp * cl) * e0 + (-sp * sl) * e1 + cp * e2 + (-(S * Real.cos az - n)) * o1 +
        (-(S * Real.cos az - n) * sp ^ 2 + sp * cp * (Real.cos s - u)) * o2
    · linear_combination (-sl) * e0 + cl * e1 - (S * Real.sin az - e) * o2
  rw [azimuth_eq lon1 lat1 lon2 lat2 h, ← key.1, ← key.2, atan2_polar hsin haz.1 haz.2]

/-- C179: `azimuth_sph` of the compiled code returns the same. -/
theorem C179_compiled (p q : Karta.Vec.Pt) : HullSph.azimuthSph p q = sphereAzimuth p.x p.y q.x q.y := by
  unfold HullSph.azimuthSph HullSph.east HullSph.north sphereAzimuth HullSph.rad radians
  rfl

/-- C179: four sequences give the array of the azimuths pair by pair (as many as the shorter ones have), four numbers give a number. -/
theorem C179_sequences (ps qs : List (ℝ × ℝ)) (a b c d : ℝ) :
    recurse azimuthArgs [.seq (ps.map Prod.fst), .seq (ps.map Prod.snd), .seq (qs.map Prod.fst), .seq (qs.map Prod.snd)] =
        .ok (.arr ((List.zip ps qs).map fun r => sphereAzimuth r.1.1 r.1.2 r.2.1 r.2.2)) ∧
      recurse azimuthArgs [.num a, .num b, .num c, .num d] = .ok (.num (sphereAzimuth a b c d)) := by
  refine ⟨?_, rfl⟩
  rw [recurse, rows_four]
  have hr : ∀ ps qs : List (ℝ × ℝ), List.zipWith (· :: ·) (ps.map Prod.fst) (List.zipWith (· :: ·) (ps.map Prod.snd) (List.zipWith (· :: ·)
      (qs.map Prod.fst) ((qs.map Prod.snd).map fun v => [v]))) = (List.zip ps qs).map fun r => [r.1.1, r.1.2, r.2.1, r.2.2] := by
    intro ps
    induction ps with
    | nil => intro qs; simp
    | cons p ps ih =>
      intro qs
      cases qs with
      | nil => simp
      | cons q qs => simp only [List.map_cons, List.zipWith_cons_cons, List.zip_cons_cons, ih qs]
  rw [hr]
  simp only [Except.bind]
  rw [mapM_total (g := fun l => match l with | [a, b, c, d] => sphereAzimuth a b c d | _ => 0)]
  · simp [Except.map, List.map_map, Function.comp_def]
  · intro l hl
    simp only [List.mem_map] at hl
    obtain ⟨r, _, rfl⟩ := hl
    rfl

/-- C179 is violated by one position and many: the number is not repeated, the call raises TypeError. -/
theorem C179_violated_mixed (a b : ℝ) (l m : List ℝ) :
    recurse azimuthArgs [.num a, .num b, .seq l, .seq m] = .error .typeError ∧
      recurse azimuthArgs [.seq l, .seq m, .num a, .num b] = .error .typeError := ⟨rfl, rfl⟩

/-! ### Examples -/

/-- A latitude that is not a pole's. -/
example : |(-30.5 : ℝ)| < 90 := by norm_num [abs_lt]

/-- A direction and an arc that meet the hypotheses of `C179_only`: due east for a quarter of the equator. -/
example : (-Real.pi < Real.pi / 2 ∧ Real.pi / 2 ≤ Real.pi) ∧ (0 < Real.pi / 2 ∧ Real.pi / 2 < Real.pi) ∧
    along 0 0 (Real.pi / 2) (Real.pi / 2) = place 90 0 ∧ sphereAzimuth 0 0 90 0 = Real.pi / 2 := by
  have hp := Real.pi_pos
  have h1 : -Real.pi < Real.pi / 2 ∧ Real.pi / 2 ≤ Real.pi := ⟨by linarith, by linarith⟩
  have h2 : 0 < Real.pi / 2 ∧ Real.pi / 2 < Real.pi := ⟨by linarith, by linarith⟩
  have h3 : along 0 0 (Real.pi / 2) (Real.pi / 2) = place 90 0 := by
    have : (90 : ℝ) * Real.pi / 180 = Real.pi / 2 := by ring
    ext i
    fin_cases i <;> simp [along, place, onSphere, northAt, eastAt, this]
  exact ⟨h1, h2, h3, (C179_only 0 0 90 0 _ _ (by norm_num) h1 h2 h3).symm⟩

end Karta.Geod.SphAz
