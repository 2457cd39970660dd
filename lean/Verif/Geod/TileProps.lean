import Verif.Geod.Tile
import Mathlib.Tactic.Linarith
import Mathlib.Tactic.FieldSimp

namespace Karta.Tile

/-- Spec: the point lies in the tile's bounding box; the western and northern sides belong to it. -/
def Holds (t : Tile) (lon lat : ℝ) : Prop :=
  (bbox t).1 ≤ lon ∧ lon < (bbox t).2.2.1 ∧ (bbox t).2.1 < lat ∧ lat ≤ (bbox t).2.2.2

/-- The Mercator ordinate. -/
noncomputable def merc (lat : ℝ) : ℝ := Real.log (Real.tan (Real.pi / 4 + lat * Real.pi / 360))

theorem merc_spec {lat : ℝ} (h1 : -90 < lat) (h2 : lat < 90) :
    Real.sinh (merc lat) = Real.tan (lat * Real.pi / 180) := by
  have hpi := Real.pi_pos
  have hlo : -(Real.pi / 2) < lat * Real.pi / 180 := by nlinarith
  have hhi : lat * Real.pi / 180 < Real.pi / 2 := by nlinarith
  generalize hφ : lat * Real.pi / 180 = φ at *
  have hhalf : Real.pi / 4 + lat * Real.pi / 360 = Real.pi / 4 + φ / 2 := by rw [← hφ]; ring
  unfold merc
  rw [hhalf]
  set θ := Real.pi / 4 + φ / 2 with hθ
  have t0 : 0 < θ := by rw [hθ]; linarith
  have t1 : θ < Real.pi / 2 := by rw [hθ]; linarith
  have hs : 0 < Real.sin θ := Real.sin_pos_of_pos_of_lt_pi t0 (by linarith)
  have hc : 0 < Real.cos θ := Real.cos_pos_of_mem_Ioo ⟨by linarith, t1⟩
  have htan : 0 < Real.tan θ := by rw [Real.tan_eq_sin_div_cos]; exact div_pos hs hc
  have e : φ = 2 * θ - Real.pi / 2 := by rw [hθ]; ring
  rw [Real.sinh_eq, Real.exp_neg, Real.exp_log htan, Real.tan_eq_sin_div_cos, Real.tan_eq_sin_div_cos, e,
    Real.sin_sub_pi_div_two, Real.cos_sub_pi_div_two, Real.cos_two_mul', Real.sin_two_mul]
  have := Real.sin_sq_add_cos_sq θ
  field_simp
  ring

theorem arctan_merc {lat : ℝ} (h1 : -90 < lat) (h2 : lat < 90) :
    lat = Real.arctan (Real.sinh (merc lat)) * 180 / Real.pi := by
  have hpi := Real.pi_pos
  rw [merc_spec h1 h2, Real.arctan_tan (by nlinarith) (by nlinarith)]
  field_simp

/-- The latitude of a tile edge, as a function of the vertical position. -/
noncomputable def edgeLat (m : ℝ) : ℝ := Real.arctan (Real.sinh m) * 180 / Real.pi

theorem edgeLat_strictMono : StrictMono edgeLat := by
  intro a b h
  have hpi := Real.pi_pos
  unfold edgeLat
  have : Real.arctan (Real.sinh a) < Real.arctan (Real.sinh b) := Real.arctan_strictMono (Real.sinh_strictMono h)
  have h2 := mul_lt_mul_of_pos_right this (show (0 : ℝ) < 180 by norm_num)
  exact div_lt_div_of_pos_right h2 hpi

theorem holds_iff (t : Tile) {lon lat : ℝ} (h1 : -90 < lat) (h2 : lat < 90) :
    Holds t lon lat ↔ t.x = ⌊2 ^ t.z * ((lon + 180) / 360)⌋ ∧ t.y = ⌊2 ^ t.z * ((1 - merc lat / Real.pi) / 2)⌋ := by
  have hpi := Real.pi_pos
  have hn : (0 : ℝ) < 2 ^ t.z := by positivity
  have hx : ∀ k : ℝ, k / 2 ^ t.z * 360 - 180 ≤ lon ↔ k ≤ 2 ^ t.z * ((lon + 180) / 360) := by
    intro k
    constructor
    · intro h
      have h' : k / 2 ^ t.z ≤ (lon + 180) / 360 := by linarith
      rw [div_le_iff₀ hn] at h'
      linarith
    · intro h
      have h' : k / 2 ^ t.z ≤ (lon + 180) / 360 := by rw [div_le_iff₀ hn]; linarith
      linarith
  have hlat : lat = edgeLat (merc lat) := arctan_merc h1 h2
  have hy : ∀ k : ℝ, lat ≤ edgeLat (Real.pi * (1 - 2 * k / 2 ^ t.z)) ↔ k ≤ 2 ^ t.z * ((1 - merc lat / Real.pi) / 2) := by
    intro k
    conv_lhs => rw [hlat]
    rw [edgeLat_strictMono.le_iff_le]
    have e : merc lat = Real.pi * (merc lat / Real.pi) := by field_simp
    constructor
    · intro h
      rw [e] at h
      have h' : merc lat / Real.pi ≤ 1 - 2 * k / 2 ^ t.z := le_of_mul_le_mul_left h hpi
      have h'' : k / 2 ^ t.z ≤ (1 - merc lat / Real.pi) / 2 := by
        have : 2 * k / 2 ^ t.z = 2 * (k / 2 ^ t.z) := by ring
        linarith
      rw [div_le_iff₀ hn] at h''
      linarith
    · intro h
      have h'' : k / 2 ^ t.z ≤ (1 - merc lat / Real.pi) / 2 := by rw [div_le_iff₀ hn]; linarith
      have : 2 * k / 2 ^ t.z = 2 * (k / 2 ^ t.z) := by ring
      rw [e]
      exact mul_le_mul_of_nonneg_left (by linarith) hpi.le
  have q1 := hx (t.x : ℝ)
  have q2 := hx ((t.x : ℝ) + 1)
  have q3 := hy (t.y : ℝ)
  have q4 := hy ((t.y : ℝ) + 1)
  have l1 : Holds t lon lat ↔ ((t.x : ℝ) / 2 ^ t.z * 360 - 180 ≤ lon ∧ lon < ((t.x : ℝ) + 1) / 2 ^ t.z * 360 - 180 ∧
      edgeLat (Real.pi * (1 - 2 * ((t.y : ℝ) + 1) / 2 ^ t.z)) < lat ∧
      lat ≤ edgeLat (Real.pi * (1 - 2 * (t.y : ℝ) / 2 ^ t.z))) := by
    unfold Holds bbox nwLon nwLat edgeLat
    push_cast
    rfl
  rw [l1, q1, q3, eq_comm (a := t.x), eq_comm (a := t.y), Int.floor_eq_iff, Int.floor_eq_iff]
  rw [← not_le, q2, ← not_le (a := lat), q4, not_le, not_le]
  tauto

theorem tileFromPoint_eq (lon lat : ℝ) (z : Nat) :
    tileFromPoint lon lat z = ⟨z, ⌊2 ^ z * ((lon + 180) / 360)⌋, ⌊2 ^ z * ((1 - merc lat / Real.pi) / 2)⌋⟩ := by
  have hpi := Real.pi_pos.ne'
  unfold tileFromPoint
  simp only [Tile.mk.injEq, true_and]
  constructor
  · congr 1; field_simp; ring
  · congr 1
    show _ * (Real.pi - merc lat) / 256 = _
    field_simp; ring

/-- **C51.**  For every point between the poles and every zoom level, the tile returned is the one and only tile of that
level whose bounding box holds the point (western and northern side included): in particular the tiles of a level
partition the plane of longitudes and latitudes. -/
theorem C51_tile {lon lat : ℝ} (h1 : -90 < lat) (h2 : lat < 90) (z : Nat) :
    (tileFromPoint lon lat z).z = z ∧ Holds (tileFromPoint lon lat z) lon lat ∧
    ∀ t : Tile, t.z = z → Holds t lon lat → t = tileFromPoint lon lat z := by
  rw [tileFromPoint_eq]
  refine ⟨rfl, (holds_iff _ h1 h2).mpr ⟨rfl, rfl⟩, ?_⟩
  intro t ht h
  obtain ⟨hx, hy⟩ := (holds_iff t h1 h2).mp h
  cases t
  simp only at ht hx hy
  subst ht
  rw [hx, hy]

/-- **C51.**  For longitudes in [-180, 180) and latitudes strictly above the southern and up to the northern limit of the
map, the column and row of the tile are between 0 and `2 ^ z - 1`. -/
theorem C51_range {lon lat : ℝ} (hl : -180 ≤ lon ∧ lon < 180) (hs : edgeLat (-Real.pi) < lat) (hn : lat ≤ edgeLat Real.pi)
    (z : Nat) : 0 ≤ (tileFromPoint lon lat z).x ∧ (tileFromPoint lon lat z).x < 2 ^ z ∧
      0 ≤ (tileFromPoint lon lat z).y ∧ (tileFromPoint lon lat z).y < 2 ^ z := by
  have hpi := Real.pi_pos
  have hedge : ∀ m, -90 < edgeLat m ∧ edgeLat m < 90 := by
    intro m
    have a := Real.neg_pi_div_two_lt_arctan (Real.sinh m)
    have b := Real.arctan_lt_pi_div_two (Real.sinh m)
    unfold edgeLat
    constructor
    · rw [lt_div_iff₀ hpi]; linarith
    · rw [div_lt_iff₀ hpi]; linarith
  have h1 : -90 < lat := lt_trans (hedge _).1 hs
  have h2 : lat < 90 := lt_of_le_of_lt hn (hedge _).2
  have hlat : lat = edgeLat (merc lat) := arctan_merc h1 h2
  rw [hlat] at hs hn
  have m1 : -Real.pi < merc lat := edgeLat_strictMono.lt_iff_lt.mp hs
  have m2 : merc lat ≤ Real.pi := edgeLat_strictMono.le_iff_le.mp hn
  have hz : (0 : ℝ) < 2 ^ z := by positivity
  rw [tileFromPoint_eq]
  simp only
  have r1 : -1 < merc lat / Real.pi := by rw [lt_div_iff₀ hpi]; linarith
  have r2 : merc lat / Real.pi ≤ 1 := by rw [div_le_iff₀ hpi]; linarith
  refine ⟨Int.floor_nonneg.mpr ?_, Int.floor_lt.mpr ?_, Int.floor_nonneg.mpr ?_, Int.floor_lt.mpr ?_⟩
  · exact mul_nonneg hz.le (by linarith [hl.1])
  · push_cast
    have : (lon + 180) / 360 < 1 := by linarith [hl.2]
    nlinarith
  · exact mul_nonneg hz.le (by linarith)
  · push_cast
    have : (1 - merc lat / Real.pi) / 2 < 1 := by linarith
    nlinarith

/-- Spec: `c` is one of the four children of `t` in the tile pyramid. -/
def IsChild (c t : Tile) : Prop :=
  c.z = t.z + 1 ∧ (c.x = 2 * t.x ∨ c.x = 2 * t.x + 1) ∧ (c.y = 2 * t.y ∨ c.y = 2 * t.y + 1)

/-- **C51.**  The four children of a tile partition it: a point is held by a tile exactly when it is held by one of its
children, and by no more than one. -/
theorem C51_children (t : Tile) {lon lat : ℝ} (h1 : -90 < lat) (h2 : lat < 90) :
    (Holds t lon lat ↔ ∃ c, IsChild c t ∧ Holds c lon lat) ∧
    (∀ c c', IsChild c t → IsChild c' t → Holds c lon lat → Holds c' lon lat → c = c') := by
  have hfl : ∀ u : ℝ, ⌊2 ^ t.z * u⌋ = ⌊(2 : ℝ) ^ (t.z + 1) * u⌋ / 2 := by
    intro u
    have e : (2 : ℝ) ^ (t.z + 1) * u = 2 * (2 ^ t.z * u) := by ring
    rw [e]
    generalize (2 : ℝ) ^ t.z * u = v
    rw [Int.floor_eq_iff]
    have a := Int.floor_le (2 * v)
    have b := Int.lt_floor_add_one (2 * v)
    have c : (2 : ℤ) * (⌊2 * v⌋ / 2) ≤ ⌊2 * v⌋ := by omega
    have d : ⌊2 * v⌋ + 1 ≤ 2 * (⌊2 * v⌋ / 2) + 2 := by omega
    have c' : (2 : ℝ) * ((⌊2 * v⌋ / 2 : ℤ) : ℝ) ≤ (⌊2 * v⌋ : ℝ) := by exact_mod_cast c
    have d' : (⌊2 * v⌋ : ℝ) + 1 ≤ 2 * ((⌊2 * v⌋ / 2 : ℤ) : ℝ) + 2 := by exact_mod_cast d
    constructor <;> linarith
  constructor
  · rw [holds_iff t h1 h2, hfl, hfl]
    constructor
    · rintro ⟨hx, hy⟩
      refine ⟨⟨t.z + 1, ⌊2 ^ (t.z + 1) * ((lon + 180) / 360)⌋, ⌊2 ^ (t.z + 1) * ((1 - merc lat / Real.pi) / 2)⌋⟩,
        ⟨rfl, ?_, ?_⟩, (holds_iff _ h1 h2).mpr ⟨rfl, rfl⟩⟩
      · simp only; omega
      · simp only; omega
    · rintro ⟨c, ⟨hz, hcx, hcy⟩, hc⟩
      obtain ⟨hx, hy⟩ := (holds_iff c h1 h2).mp hc
      rw [hz] at hx hy
      rw [← hx, ← hy]
      constructor
      · rcases hcx with h | h <;> omega
      · rcases hcy with h | h <;> omega
  · intro c c' hc hc' hh hh'
    have u1 := (C51_tile (lon := lon) h1 h2 (t.z + 1)).2.2 c hc.1 hh
    have u2 := (C51_tile (lon := lon) h1 h2 (t.z + 1)).2.2 c' hc'.1 hh'
    rw [u1, u2]

/-- A point on the equator at 90 degrees east is in column 1, row 0 or 1 of level 1: here row 1, since the northern side
of a tile belongs to it. -/
example : tileFromPoint 90 0 1 = ⟨1, 1, 1⟩ ∧ Holds ⟨1, 1, 1⟩ 90 0 := by
  have hm : merc 0 = 0 := by unfold merc; simp [Real.tan_pi_div_four]
  have e : tileFromPoint 90 0 1 = ⟨1, 1, 1⟩ := by
    rw [tileFromPoint_eq, hm]
    simp only [Tile.mk.injEq, true_and]
    constructor <;> rw [Int.floor_eq_iff] <;> norm_num
  exact ⟨e, e ▸ (C51_tile (by norm_num) (by norm_num) 1).2.1⟩

end Karta.Tile
