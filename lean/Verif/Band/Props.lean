import Verif.Band.Lemmas

/-!
# Properties C01–C04: storage bands

Vocabulary: `Spec.Write`, `Spec.Write.Fits`, `Spec.InRange`, `Spec.lastWritten`
(file `Band/Spec.lean`); model: `CBand`, `SBand` (file `Band/Model.lean`).
-/

namespace Karta.Band.Props
open Karta Karta.Band Karta.Band.Spec

variable {α : Type _}

/-- The arguments with which a caller issues a history of writes. -/
def calls (ws : List (Write α)) : List (Int × Int × Arr α) :=
  ws.map fun w => (w.yoff, w.xoff, w.block)

/-- **C01.** After any history of in-range `setblock` calls on a fresh `CompressedBand`
(any size, any positive chunk size, any initial value) no call has failed, and `getblock`
on any in-range window succeeds with the requested shape, every cell written, each cell
being the most recently written value of that pixel or the initial value. -/
theorem C01_compressed_band_is_last_write_wins
    (H W cy cx : Nat) (hcy : 0 < cy) (hcx : 0 < cx) (init : α)
    (ws : List (Write α)) (hws : ∀ w ∈ ws, w.Fits H W)
    (yoff xoff ny nx : Int) (hwin : InRange H W yoff xoff ny nx) :
    ∃ b res, CBand.run (calls ws) (CBand.new H W cy cx init) = (b, none) ∧
      b.getblock yoff xoff ny nx = .ok res ∧
      res.ny = ny.toNat ∧ res.nx = nx.toNat ∧
      ∀ r c : Nat, r < ny.toNat → c < nx.toNat →
        res.get r c = some (lastWritten init ws (yoff + r) (xoff + c)) := by
  obtain ⟨b, hb, hi, h1, h2, -, -, hv⟩ := CBand.run_spec H W cy cx hcy hcx init ws hws
  obtain ⟨res, e, a1, a2, v⟩ := CBand.getblock_spec b hi yoff xoff ny nx (by rw [h1, h2]; exact hwin)
  refine ⟨b, res, hb, e, a1, a2, ?_⟩
  intro r c hr hc
  obtain ⟨g0, g1, g2, g3, g4, g5⟩ := hwin
  rw [v r c hr hc, hv _ _ (by omega) (by omega) (by omega) (by omega)]

/-- **C02.** The chunk size is unobservable: two bands differing only in chunk size
return the same pixels after the same in-range history. -/
theorem C02_chunk_size_unobservable
    (H W cy cx cy' cx' : Nat) (hcy : 0 < cy) (hcx : 0 < cx) (hcy' : 0 < cy') (hcx' : 0 < cx')
    (init : α) (ws : List (Write α)) (hws : ∀ w ∈ ws, w.Fits H W)
    (yoff xoff ny nx : Int) (hwin : InRange H W yoff xoff ny nx) :
    ∃ b b' res res',
      CBand.run (calls ws) (CBand.new H W cy cx init) = (b, none) ∧
      CBand.run (calls ws) (CBand.new H W cy' cx' init) = (b', none) ∧
      b.getblock yoff xoff ny nx = .ok res ∧ b'.getblock yoff xoff ny nx = .ok res' ∧
      res.Same res' := by
  obtain ⟨b, res, h1, h2, h3, h4, h5⟩ :=
    C01_compressed_band_is_last_write_wins H W cy cx hcy hcx init ws hws yoff xoff ny nx hwin
  obtain ⟨b', res', h1', h2', h3', h4', h5'⟩ :=
    C01_compressed_band_is_last_write_wins H W cy' cx' hcy' hcx' init ws hws yoff xoff ny nx hwin
  refine ⟨b, b', res, res', h1, h1', h2, h2', by omega, by omega, ?_⟩
  intro r c hr hc
  rw [h5 r c (by omega) (by omega), h5' r c (by omega) (by omega)]

/-- **C03.** `SimpleBand` and `CompressedBand` are interchangeable: after the same
in-range history both return the same array from every in-range window. -/
theorem C03_simple_and_compressed_agree
    (H W cy cx : Nat) (hcy : 0 < cy) (hcx : 0 < cx) (init : α)
    (ws : List (Write α)) (hws : ∀ w ∈ ws, w.Fits H W)
    (yoff xoff ny nx : Int) (hwin : InRange H W yoff xoff ny nx) :
    ∃ b s res, CBand.run (calls ws) (CBand.new H W cy cx init) = (b, none) ∧
      SBand.run (calls ws) (SBand.new H W init) = (s, none) ∧
      b.getblock yoff xoff ny nx = .ok res ∧
      res.Same ((s.getblock yoff xoff ny nx).map some) := by
  obtain ⟨b, res, h1, h2, h3, h4, h5⟩ :=
    C01_compressed_band_is_last_write_wins H W cy cx hcy hcx init ws hws yoff xoff ny nx hwin
  obtain ⟨s, hs, k1, k2, hv⟩ := SBand.run_spec H W init ws hws
  obtain ⟨m1, m2, mv⟩ := SBand.getblock_spec s yoff xoff ny nx (by rw [k1, k2]; exact hwin)
  refine ⟨b, s, res, h1, hs, h2, ?_, ?_, ?_⟩
  · simp only [Arr.map]; omega
  · simp only [Arr.map]; omega
  · intro r c hr hc
    obtain ⟨g0, g1, -⟩ := hwin
    rw [h5 r c (by omega) (by omega)]
    simp only [Arr.map, mv, hv]
    congr 2 <;> omega

/-- **C04 (violated).** English property: an out-of-range `setblock` never changes a pixel
outside the requested block.  False: on an 8×3 band with 4×4 chunks holding zeros, storing
a 1×3 block of sevens at row 0, column 5 – entirely right of the band – raises nothing and
changes pixel (4, 1), in another chunk row. -/
theorem C04_violated_silent_corruption :
    ∃ (b b' : CBand Int) (w : Write Int) (res : Arr (Option Int)),
      b = CBand.new 8 3 4 4 0 ∧ w = ⟨0, 5, ⟨1, 3, fun _ _ => 7⟩⟩ ∧
      ¬ w.Covers 4 1 ∧
      b.setblock w.yoff w.xoff w.block = (b', none) ∧
      b'.getblock 4 1 1 1 = .ok res ∧ res.get 0 0 = some 7 :=
  ⟨_, _, _, _, rfl, rfl, by decide, rfl, rfl, rfl⟩

/-- **C04 (violated), negative offset.** Storing one pixel at row -1 of a 5×2 band with
2×2 chunks raises nothing, and neither Python's wrap-around nor an error results: the value
lands in the padding of the last chunk row, while on a 4×2 band the same call overwrites
pixel (3, 0). -/
theorem C04_violated_negative_offset :
    ∃ (b b' : CBand Int) (w : Write Int) (res : Arr (Option Int)),
      b = CBand.new 4 2 2 2 0 ∧ w = ⟨-1, 0, ⟨1, 1, fun _ _ => 7⟩⟩ ∧
      ¬ w.Covers 3 0 ∧
      b.setblock w.yoff w.xoff w.block = (b', none) ∧
      b'.getblock 3 0 1 1 = .ok res ∧ res.get 0 0 = some 7 :=
  ⟨_, _, _, _, rfl, rfl, by decide, rfl, rfl, rfl⟩

/-- **C04 (partial).** Full statement: for *every* block, pixels outside the block keep
their value.  Proved here: it holds whenever the first row and column of the block are not
negative and the first column is at most the band width (the block may overflow the bottom
and right edges, and the call may succeed or raise half-way).  Missing: blocks starting
right of the band or at negative offsets, for which `C04_violated_*` shows it false. -/
theorem C04_overflowing_write_frame_partial
    (H W cy cx : Nat) (hcy : 0 < cy) (hcx : 0 < cx) (init : α)
    (ws : List (Write α)) (hws : ∀ w ∈ ws, w.Fits H W)
    (w : Write α) (hy : 0 ≤ w.yoff) (hx : 0 ≤ w.xoff) (hxW : w.xoff ≤ W)
    (yoff xoff ny nx : Int) (hwin : InRange H W yoff xoff ny nx) :
    ∃ b b' e res, CBand.run (calls ws) (CBand.new H W cy cx init) = (b, none) ∧
      b.setblock w.yoff w.xoff w.block = (b', e) ∧
      b'.getblock yoff xoff ny nx = .ok res ∧
      ∀ r c : Nat, r < ny.toNat → c < nx.toNat → ¬ w.Covers (yoff + r) (xoff + c) →
        res.get r c = some (lastWritten init ws (yoff + r) (xoff + c)) := by
  obtain ⟨b, hb, hi, h1, h2, -, -, hv⟩ := CBand.run_spec H W cy cx hcy hcx init ws hws
  obtain ⟨i', n1, n2, v⟩ := CBand.setblock_frame b hi w hy hx (by omega)
  obtain ⟨res, e, a1, a2, v'⟩ := CBand.getblock_spec _ i' yoff xoff ny nx
    (by rw [n1, n2, h1, h2]; exact hwin)
  refine ⟨b, _, _, res, hb, rfl, e, ?_⟩
  intro r c hr hc hnc
  obtain ⟨g0, g1, g2, g3, g4, g5⟩ := hwin
  rw [v' r c hr hc, v _ _ (by omega) (by omega) (by omega) (by omega) hnc,
    hv _ _ (by omega) (by omega) (by omega) (by omega)]

/-! ### Non-vacuity -/

/-- A 5×7 band with 2×3 chunks, two overlapping writes, a window crossing chunk edges. -/
def exWrites : List (Write Int) :=
  [⟨0, 0, ⟨5, 7, fun r c => 10 * r + c⟩⟩, ⟨1, 2, ⟨3, 4, fun _ _ => -1⟩⟩]

example : ∀ w ∈ exWrites, w.Fits 5 7 := by
  simp [exWrites, Write.Fits, InRange]

example : InRange 5 7 0 1 4 6 := by simp [InRange]

example : lastWritten 0 exWrites 0 1 = 1 ∧ lastWritten 0 exWrites 2 3 = -1 ∧
    lastWritten 0 (exWrites.drop 1) 4 6 = 0 := by decide

example : ((CBand.run (calls exWrites) (CBand.new 5 7 2 3 0)).1.getblock 0 1 4 6).toOption.map
    (fun res => (res.get 2 1, res.get 0 5)) = some (some (-1), some 6) := by decide

/-- Hypotheses of C04_partial are met by a write overflowing the bottom edge. -/
example : (0:Int) ≤ (⟨4, 3, ⟨3, 2, fun _ _ => 7⟩⟩ : Write Int).yoff ∧
    ((⟨4, 3, ⟨3, 2, fun _ _ => 7⟩⟩ : Write Int).xoff ≤ (7:Nat)) ∧
    ¬ (⟨4, 3, ⟨3, 2, fun _ _ => (7:Int)⟩⟩ : Write Int).Fits 5 7 := by
  simp [Write.Fits, InRange]

/-- C01, C02, C03 and C04 applied to the example. -/
example := C01_compressed_band_is_last_write_wins 5 7 2 3 (by decide) (by decide) 0 exWrites (by simp [exWrites, Write.Fits, InRange])
  0 1 4 6 (by simp [InRange])
example := C02_chunk_size_unobservable 5 7 2 3 4 1 (by decide) (by decide) (by decide) (by decide) 0 exWrites
  (by simp [exWrites, Write.Fits, InRange]) 0 1 4 6 (by simp [InRange])
example := C03_simple_and_compressed_agree 5 7 2 3 (by decide) (by decide) 0 exWrites (by simp [exWrites, Write.Fits, InRange])
  0 1 4 6 (by simp [InRange])
example := C04_overflowing_write_frame_partial 5 7 2 3 (by decide) (by decide) 0 exWrites (by simp [exWrites, Write.Fits, InRange])
  ⟨4, 3, ⟨3, 2, fun _ _ => 7⟩⟩ (by decide) (by decide) (by decide) 0 1 4 6 (by simp [InRange])

end Karta.Band.Props
