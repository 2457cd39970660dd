import Verif.Float.Units
import Verif.Geod.Tile
import Mathlib.Tactic.Linarith
import Mathlib.Tactic.FieldSimp
import Mathlib.Tactic.LinearCombination

/-!
Model of the columns of web-map tiles (karta/tile.py) with rounded arithmetic, and property C154.
-/

namespace Karta.Float
open Karta

variable (R : Rounding)

/-- `math.pi`, the double nearest to π. -/
def piD : ℚ := 884279719003555 / 2 ^ 48

/-- `tile_from_point`, column (tile.py 66-78), for `math.pi = P`: `c = 128/math.pi * 2**z`,
`x0 = c * (lon0*math.pi/180+math.pi)`, `x = int(x0 // dlon)`.  The division by 256 in `//` is exact and rounds down.  The longitude is
that of a geographical system; the projection of other systems is not modelled. -/
def tileColF (P lon : ℚ) (z : Nat) : Int :=
  let c := R.fl (R.fl (128 / P) * 2 ^ z)
  let x0 := R.fl (c * R.fl (R.fl (R.fl (lon * P) / 180) + P))
  ⌊x0 / 256⌋

/-- `nw_corner`, longitude (tile.py 27-31): `float(x)/n * 360.0 - 180.0`. -/
def nwLonF (z : Nat) (x : Int) : ℚ := R.fl (R.fl (R.fl (x / 2 ^ z) * 360) - 180)

variable {R}

/-! ### Specification -/

/-- The western border of column `x` at zoom level `z`: the circle is divided into `2^z` equal columns, the first of which begins at the
date line. -/
def border (z : Nat) (x : Int) : ℚ := 360 * x / 2 ^ z - 180

/-! ### Helpers -/

theorem prod_err {a b x y : ℚ} (ha : |a - 1| ≤ x) (hb : |b - 1| ≤ y) : |a * b - 1| ≤ x + y + x * y := by
  have e : a * b - 1 = (a - 1) + (b - 1) + (a - 1) * (b - 1) := by ring
  rw [e]
  have h1 : |(a - 1) * (b - 1)| ≤ x * y := by
    rw [abs_mul]
    exact mul_le_mul ha hb (abs_nonneg _) ((abs_nonneg _).trans ha)
  have h2 := abs_add_le ((a - 1) + (b - 1)) ((a - 1) * (b - 1))
  have h3 := abs_add_le (a - 1) (b - 1)
  linarith

theorem tile_err (R : Rounding) {P lon : ℚ} (hP : 0 < P) (h1 : -180 ≤ lon) (h2 : lon ≤ 180) (z : Nat) :
    |R.fl (R.fl (R.fl (128 / P) * 2 ^ z) * R.fl (R.fl (R.fl (lon * P) / 180) + P)) / 256 - 2 ^ z * (lon + 180) / 360|
      ≤ 2 ^ z / 2 ^ 50 := by
  obtain ⟨d1, b1, e1⟩ := R.rel (128 / P)
  rw [e1]
  obtain ⟨d2, b2, e2⟩ := R.rel (128 / P * (1 + d1) * 2 ^ z)
  rw [e2]
  obtain ⟨d3, b3, e3⟩ := R.rel (lon * P)
  rw [e3]
  obtain ⟨d4, b4, e4⟩ := R.rel (lon * P * (1 + d3) / 180)
  rw [e4]
  obtain ⟨d5, b5, e5⟩ := R.rel (lon * P * (1 + d3) / 180 * (1 + d4) + P)
  rw [e5]
  obtain ⟨d6, b6, e6⟩ := R.rel (128 / P * (1 + d1) * 2 ^ z * (1 + d2) * ((lon * P * (1 + d3) / 180 * (1 + d4) + P) * (1 + d5)))
  rw [e6]
  have one : ∀ d : ℚ, |d| ≤ 1 / 2 ^ 53 → |(1 + d) - 1| ≤ 1 / 2 ^ 53 := by
    intro d hd
    rwa [add_sub_cancel_left]
  have hB : |(1 + d3) * (1 + d4) - 1| ≤ 3 / 2 ^ 53 :=
    (prod_err (one d3 b3) (one d4 b4)).trans (by norm_num)
  have hA : |((1 + d1) * (1 + d2)) * ((1 + d5) * (1 + d6)) - 1| ≤ 5 / 2 ^ 53 :=
    (prod_err ((prod_err (one d1 b1) (one d2 b2)).trans (show _ ≤ (9 : ℚ) / 4 / 2 ^ 53 by norm_num))
      ((prod_err (one d5 b5) (one d6 b6)).trans (show _ ≤ (9 : ℚ) / 4 / 2 ^ 53 by norm_num))).trans (by norm_num)
  generalize hBd : (1 + d3) * (1 + d4) = B at hB
  generalize hAd : ((1 + d1) * (1 + d2)) * ((1 + d5) * (1 + d6)) = A at hA
  have key : 128 / P * (1 + d1) * 2 ^ z * (1 + d2) * ((lon * P * (1 + d3) / 180 * (1 + d4) + P) * (1 + d5)) * (1 + d6) / 256
      - 2 ^ z * (lon + 180) / 360 = 2 ^ z / 2 * ((A - 1) * (lon / 180 * B + 1) + lon / 180 * (B - 1)) := by
    rw [← hAd, ← hBd]
    field_simp
    ring
  rw [key, abs_mul, abs_of_pos (by positivity : (0 : ℚ) < 2 ^ z / 2)]
  have hq : |lon / 180| ≤ 1 := by
    rw [abs_le]
    constructor
    · rw [le_div_iff₀ (by norm_num)]; linarith
    · rw [div_le_iff₀ (by norm_num)]; linarith
  generalize lon / 180 = q at hq
  have t1 : |q * (B - 1)| ≤ 3 / 2 ^ 53 := by
    rw [abs_mul]
    calc |q| * |B - 1| ≤ 1 * (3 / 2 ^ 53) := mul_le_mul hq hB (abs_nonneg _) (by norm_num)
      _ = 3 / 2 ^ 53 := one_mul _
  have t2 : |q * B + 1| ≤ 2 + 3 / 2 ^ 53 := by
    have e : q * B + 1 = q + 1 + q * (B - 1) := by ring
    rw [e]
    have := abs_add_le (q + 1) (q * (B - 1))
    have h3 := abs_add_le q 1
    rw [abs_one] at h3
    linarith
  have t3 : |(A - 1) * (q * B + 1)| ≤ 5 / 2 ^ 53 * (2 + 3 / 2 ^ 53) := by
    rw [abs_mul]
    exact mul_le_mul hA t2 (abs_nonneg _) (by norm_num)
  have t4 := abs_add_le ((A - 1) * (q * B + 1)) (q * (B - 1))
  have t5 : |(A - 1) * (q * B + 1) + q * (B - 1)| ≤ 2 / 2 ^ 50 := by
    refine t4.trans ((add_le_add t3 t1).trans ?_)
    norm_num
  calc (2 : ℚ) ^ z / 2 * |(A - 1) * (q * B + 1) + q * (B - 1)| ≤ 2 ^ z / 2 * (2 / 2 ^ 50) :=
        mul_le_mul_of_nonneg_left t5 (by positivity)
    _ = 2 ^ z / 2 ^ 50 := by ring

/-- The true fractional column in terms of borders. -/
theorem border_iff (z : Nat) (x : Int) (lon t : ℚ) : border z x + 360 * t ≤ lon ↔ (x : ℚ) + 2 ^ z * t ≤ 2 ^ z * (lon + 180) / 360 := by
  have hz : (0 : ℚ) < 2 ^ z := by positivity
  unfold border
  rw [le_div_iff₀ (by norm_num : (0 : ℚ) < 360)]
  constructor
  · intro h
    have : 360 * (x : ℚ) / 2 ^ z ≤ lon + 180 - 360 * t := by linarith
    rw [div_le_iff₀ hz] at this
    linarith
  · intro h
    have : 360 * (x : ℚ) / 2 ^ z ≤ lon + 180 - 360 * t := by
      rw [div_le_iff₀ hz]
      linarith
    linarith

/-! ### C154 -/

/-- **C154 (partial).** Full statement: with doubles, the column looked up for a longitude is the one the longitude lies in, from its
western border, which counts, to its eastern border, which does not.  Proved for all zoom levels and all longitudes that are at least
`360/2^50` degrees (some 40 nanometres on the equator) inside the borders; on the borders it fails (`C154_violated_corner`). -/
theorem C154_inside_partial (R : Rounding) {P lon : ℚ} (hP : 0 < P) (h1 : -180 ≤ lon) (h2 : lon ≤ 180) (z : Nat) (x : Int)
    (hw : border z x + 360 / 2 ^ 50 ≤ lon) (he : lon < border z (x + 1) - 360 / 2 ^ 50) : tileColF R P lon z = x := by
  have h := tile_err R hP h1 h2 z
  rw [abs_le] at h
  have e1 : (360 : ℚ) / 2 ^ 50 = 360 * (1 / 2 ^ 50) := by ring
  rw [e1] at hw he
  have a := (border_iff z x lon _).mp hw
  have b : 2 ^ z * (lon + 180) / 360 < ((x + 1 : Int) : ℚ) + 2 ^ z * (-(1 / 2 ^ 50)) := by
    by_contra hc
    have := (border_iff z (x + 1) lon (-(1 / 2 ^ 50))).mpr (not_lt.mp hc)
    linarith
  have e2 : (2 : ℚ) ^ z / 2 ^ 50 = 2 ^ z * (1 / 2 ^ 50) := by ring
  rw [e2] at h
  unfold tileColF
  dsimp only
  rw [Int.floor_eq_iff]
  push_cast at b
  constructor <;> linarith [h.1, h.2]

/-- **C154 (nearby).** Whatever the longitude, the column looked up contains it up to `360/2^50` degrees. -/
theorem C154_near (R : Rounding) {P lon : ℚ} (hP : 0 < P) (h1 : -180 ≤ lon) (h2 : lon ≤ 180) (z : Nat) :
    border z (tileColF R P lon z) - 360 / 2 ^ 50 ≤ lon ∧ lon ≤ border z (tileColF R P lon z + 1) + 360 / 2 ^ 50 := by
  have h := tile_err R hP h1 h2 z
  rw [abs_le] at h
  have e1 : (360 : ℚ) / 2 ^ 50 = 360 * (1 / 2 ^ 50) := by ring
  have e2 : (2 : ℚ) ^ z / 2 ^ 50 = 2 ^ z * (1 / 2 ^ 50) := by ring
  rw [e2] at h
  have f1 : (tileColF R P lon z : ℚ) ≤ _ := Int.floor_le _
  have f2 := Int.lt_floor_add_one (R.fl (R.fl (R.fl (128 / P) * 2 ^ z) * R.fl (R.fl (R.fl (lon * P) / 180) + P)) / 256)
  have f3 : (⌊R.fl (R.fl (R.fl (128 / P) * 2 ^ z) * R.fl (R.fl (R.fl (lon * P) / 180) + P)) / 256⌋ : Int) = tileColF R P lon z := rfl
  rw [f3] at f2
  rw [e1]
  constructor
  · have := (border_iff z (tileColF R P lon z) lon (-(1 / 2 ^ 50))).mpr (by linarith [h.1, h.2])
    linarith
  · by_contra hc
    have := (border_iff z (tileColF R P lon z + 1) lon (1 / 2 ^ 50)).mp (by linarith)
    push_cast at this
    linarith [h.1, h.2]

/-- **C154 (order).** Points further east are never looked up in columns further west. -/
theorem C154_order (R : Rounding) {P lon lon' : ℚ} (hP : 0 < P) (h : lon ≤ lon') (z : Nat) :
    tileColF R P lon z ≤ tileColF R P lon' z := by
  unfold tileColF
  dsimp only
  apply Int.floor_le_floor
  apply div_le_div_of_nonneg_right _ (by norm_num)
  apply R.mono
  apply mul_le_mul_of_nonneg_left
  · apply R.mono
    apply add_le_add_left
    apply R.mono
    apply div_le_div_of_nonneg_right _ (by norm_num)
    apply R.mono
    exact mul_le_mul_of_nonneg_right h hP.le
  · exact R.nonneg (mul_nonneg (R.nonneg (by positivity)) (by positivity))

/-- **C154 (corners).** The corners of tiles are computed without any error, up to zoom level 40. -/
theorem C154_corner_exact (R : Rounding) (z : Nat) (hz : z ≤ 40) (x : Int) (h0 : 0 ≤ x) (h1 : x ≤ 2 ^ z) :
    nwLonF R z x = border z x := by
  have hz0 : (2 : ℚ) ^ z ≠ 0 := by positivity
  have hzp : (2 : ℚ) ^ (-(z : ℤ)) = 1 / 2 ^ z := by rw [zpow_neg, zpow_natCast, one_div]
  have hpow : (2 : ℤ) ^ z ≤ 2 ^ 40 := pow_le_pow_right₀ (by norm_num) hz
  have hx : |x| ≤ 2 ^ 40 := by rw [abs_of_nonneg h0]; omega
  have u1 : InUnits (-(z : ℤ)) (2 ^ 40) ((x : ℚ) / 2 ^ z) := ⟨x, hx, by rw [hzp]; ring⟩
  have u2 : InUnits (-(z : ℤ)) (2 ^ 40 * 360) ((x : ℚ) / 2 ^ z * (360 : ℤ)) := u1.mul_int (by norm_num)
  have u3 : InUnits (-(z : ℤ)) (180 * 2 ^ 40) (180 : ℚ) :=
    ⟨180 * 2 ^ z, by rw [abs_of_nonneg (by positivity)]; omega, by rw [hzp]; push_cast; field_simp⟩
  have u4 := u2.sub u3
  unfold nwLonF border
  rw [u1.exact (R := R) (by norm_num)]
  have e : (x : ℚ) / 2 ^ z * 360 = (x : ℚ) / 2 ^ z * (360 : ℤ) := by push_cast; ring
  rw [e, u2.exact (R := R) (by norm_num), u4.exact (R := R) (by norm_num)]
  push_cast
  ring

/-- **C154 (violated).** The western corners of tiles are exact, yet looking one up may give the tile to the west: the corner of tile 1
at zoom level 5, at 168.75 degrees west, is found in tile 0. -/
theorem C154_violated_corner : nwLonF double 5 1 = -168.75 ∧ border 5 1 = -168.75 ∧ tileColF double piD (-168.75) 5 = 0 := by
  decide +kernel

/-- **C154 (violated).** The double below 180 degrees is looked up in a column that does not exist: column 1 of the single tile of the
world. -/
theorem C154_violated_beyond : rnd (180 - 1 / 2 ^ 45) = 180 - 1 / 2 ^ 45 ∧ border 0 1 = 180 ∧
    tileColF double piD (180 - 1 / 2 ^ 45) 0 = 1 := by
  decide +kernel

example : tileColF double piD (rnd (8.55)) 10 = 536 := by decide +kernel

/-- A longitude that meets the hypotheses, just east of the corner that fails. -/
example : tileColF double piD (-168.75 + 1 / 2 ^ 41) 5 = 1 :=
  C154_inside_partial double (by norm_num [piD]) (by norm_num) (by norm_num) 5 1 (by norm_num [border]) (by norm_num [border])

end Karta.Float
