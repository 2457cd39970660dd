import Verif.Band.Model
import Verif.Band.Spec
import Mathlib.Tactic.Linarith
import Mathlib.Tactic.Ring
import Mathlib.Tactic.Push
import Mathlib.Tactic.SplitIfs
import Mathlib.Data.List.Induction

/-! Helper lemmas for the band properties. -/

namespace Karta
namespace Py

theorem lt_ceilDiv {a b : Int} (hb : 0 < b) (i : Int) : i < ceilDiv a b ↔ i * b < a := by
  unfold ceilDiv
  constructor
  · intro h
    have h1 : (-a) / b < -i := by omega
    have h2 := (Int.ediv_lt_iff_lt_mul hb).1 h1
    have : -i * b = -(i * b) := by ring
    omega
  · intro h
    have : -i * b = -(i * b) := by ring
    have h1 : (-a) / b < -i := (Int.ediv_lt_iff_lt_mul hb).2 (by omega)
    omega

theorem ceilDiv_nonneg {a b : Int} (hb : 0 < b) (ha : 0 ≤ a) : 0 ≤ ceilDiv a b := by
  have := (lt_ceilDiv (a := a) hb (-1))
  have h := this.2 (by omega)
  omega

theorem mem_range1 {a b i : Int} : i ∈ range1 a b ↔ a ≤ i ∧ i < b := by
  unfold range1
  simp only [List.mem_map, List.mem_range]
  constructor
  · rintro ⟨k, hk, rfl⟩; omega
  · intro h; exact ⟨(i - a).toNat, by omega, by omega⟩

theorem sliceStart_of_nonneg {n : Nat} {a : Int} (h : 0 ≤ a) (h2 : a ≤ n) :
    (sliceStart n a : Int) = a := by
  unfold sliceStart
  rw [if_neg (by omega)]
  omega

theorem normIndex_of_lt {n : Nat} {i : Int} (h : 0 ≤ i) (h2 : i < n) :
    normIndex n i = some i.toNat := by
  unfold normIndex; simp [h, h2]

end Py

namespace Band
open Py Spec

variable {α : Type _}

namespace CBand

/-- Number of chunk rows / columns. -/
def rows (b : CBand α) : Int := ceilDiv b.ny b.cy
def cols (b : CBand α) : Int := ceilDiv b.nx b.cx

/-- Representation invariant. -/
structure Inv (b : CBand α) : Prop where
  hcy : 0 < b.cy
  hcx : 0 < b.cx
  len : (b.data.length : Int) = b.rows * b.cols
  shape : ∀ (n : Nat) (a : Arr α), b.data[n]? = some (some a) → a.ny = b.cy ∧ a.nx = b.cx

/-- Chunk number holding a pixel. -/
def chunkOf (b : CBand α) (y x : Int) : Nat := (y / b.cy * b.cols + x / b.cx).toNat

/-- Abstraction function: the value of a pixel. -/
def pix (b : CBand α) (y x : Int) : α :=
  (b.chunkData (b.chunkOf y x)).get (y % b.cy).toNat (x % b.cx).toNat

theorem new_inv (ny nx cy cx : Nat) (init : α) (hcy : 0 < cy) (hcx : 0 < cx) :
    (CBand.new ny nx cy cx init).Inv where
  hcy := hcy
  hcx := hcx
  len := by
    have h1 : 0 ≤ ceilDiv (ny : Int) cy := ceilDiv_nonneg (by omega) (by omega)
    have h2 : 0 ≤ ceilDiv (nx : Int) cx := ceilDiv_nonneg (by omega) (by omega)
    simp [CBand.new, rows, cols, h1, h2]
  shape := by
    intro n a h
    simp [CBand.new, List.getElem?_replicate] at h

theorem new_pix (ny nx cy cx : Nat) (init : α) (y x : Int) :
    (CBand.new ny nx cy cx init).pix y x = init := by
  unfold pix chunkData
  split
  · rename_i a h
    simp [CBand.new, List.getElem?_replicate] at h
  · rfl

/-- `i*c ≤ y < i*c + c` pins the quotient. -/
theorem ediv_eq_of {y c i : Int} (hc : 0 < c) (h1 : i * c ≤ y) (h2 : y < i * c + c) :
    y / c = i := by
  have h3 : i ≤ y / c := (Int.le_ediv_iff_mul_le hc).2 h1
  have h4 : y / c < i + 1 := (Int.ediv_lt_iff_lt_mul hc).2 (by linarith [add_mul i 1 c])
  omega

theorem emod_eq_of {y c i : Int} (hi : y / c = i) : y % c = y - i * c := by
  have := Int.mul_ediv_add_emod y c
  rw [hi] at this
  linarith [mul_comm c i]

/-- Chunk numbers are injective on the chunk grid. -/
theorem chunk_inj {i i' j j' m : Int} (hj0 : 0 ≤ j) (hj : j < m) (hj0' : 0 ≤ j') (hj' : j' < m)
    (h : i * m + j = i' * m + j') : i = i' ∧ j = j' := by
  have hm : 0 < m := by omega
  have e1 : (i * m + j) / m = i := by
    rw [add_comm, Int.add_mul_ediv_right _ _ (by omega), Int.ediv_eq_zero_of_lt hj0 hj]; omega
  have e2 : (i' * m + j') / m = i' := by
    rw [add_comm, Int.add_mul_ediv_right _ _ (by omega), Int.ediv_eq_zero_of_lt hj0' hj']; omega
  have : i = i' := by rw [← e1, ← e2, h]
  subst this
  exact ⟨rfl, by omega⟩

theorem chunk_bounds {i j r m : Int} (hi0 : 0 ≤ i) (hi : i < r) (hj0 : 0 ≤ j) (hj : j < m) :
    0 ≤ i * m + j ∧ i * m + j < r * m := by
  have hm : 0 < m := by omega
  constructor
  · nlinarith
  · nlinarith

/-- The chunk tuple for chunk row `i`, chunk column `j`. -/
def mkChunk (b : CBand α) (i j : Int) : Chunk :=
  { num := i * ceilDiv b.nx b.cx + j
    yst := i * b.cy
    yen := min ((i + 1) * b.cy) b.ny
    xst := j * b.cx
    xen := min ((j + 1) * b.cx) b.nx }

theorem getchunks_eq (b : CBand α) (yoff xoff ny nx : Int) :
    b.getchunks yoff xoff ny nx =
      (range1 (yoff / b.cy) (ceilDiv (yoff + ny) b.cy)).flatMap fun i =>
        (range1 (xoff / b.cx) (ceilDiv (xoff + nx) b.cx)).map fun j => b.mkChunk i j := rfl

/-- One-dimensional slice arithmetic shared by reading and writing. -/
structure Axis (S c : Nat) (off n i : Int) : Prop where
  hc : 0 < c
  h0 : 0 ≤ off
  hn : 0 ≤ n
  hS : off + n ≤ S
  lo : off < i * c + c
  hi : i * c < off + n
  nn : 0 ≤ i

theorem axis_of_mem {S c : Nat} {off n i : Int} (hc : 0 < c) (h0 : 0 ≤ off) (hn : 0 ≤ n)
    (hS : off + n ≤ S) (h : i ∈ range1 (off / c) (ceilDiv (off + n) c)) : Axis S c off n i := by
  rw [mem_range1] at h
  have hc' : (0 : Int) < c := by omega
  refine ⟨hc, h0, hn, hS, ?_, ?_, ?_⟩
  · have := (Int.ediv_lt_iff_lt_mul hc').1 (show off / (c:Int) < i + 1 by omega)
    linarith [add_mul i 1 (c:Int)]
  · exact (lt_ceilDiv hc' i).1 h.2
  · have : 0 ≤ off / (c:Int) := Int.ediv_nonneg h0 (by omega)
    omega

theorem mem_of_covers {c : Nat} {off n y : Int} (hc : 0 < c)
    (h1 : off ≤ y) (h2 : y < off + n) :
    y / (c:Int) ∈ range1 (off / c) (ceilDiv (off + n) c) := by
  rw [mem_range1]
  have hc' : (0 : Int) < c := by omega
  refine ⟨Int.ediv_le_ediv hc' h1, (lt_ceilDiv hc' _).2 ?_⟩
  have := Int.ediv_mul_le y (show (c:Int) ≠ 0 by omega)
  omega

theorem axis_lt {S c : Nat} {off n i : Int} (h : Axis S c off n i) : i < ceilDiv S c := by
  have hc' : (0 : Int) < c := by have := h.hc; omega
  rw [lt_ceilDiv hc']
  have := h.hi; have := h.hS; omega

/-- Write-side slice arithmetic along one axis. -/
theorem axis_write {S c N : Nat} {off i : Int} (h : Axis S c off N i) :
    let Y := i * (c:Int)
    let t0 := sliceStart c (max 0 (off - Y))
    let tl := sliceLen c (max 0 (off - Y)) (min (c:Int) (off + N - Y))
    let d0 := sliceStart N (max 0 (Y - off))
    let dl := sliceLen N (max 0 (Y - off)) (min (N:Int) (min ((i + 1) * c) S - off))
    dl = tl ∧ ∀ r : Nat, r < c →
      ((t0 ≤ r ∧ r < t0 + tl) ↔ (off ≤ Y + r ∧ Y + r < off + N)) ∧
      (t0 ≤ r → r < t0 + tl → d0 + (if dl = 1 then 0 else r - t0) = (Y + r - off).toNat) := by
  obtain ⟨hc, h0, hn, hS, lo, hi, nn⟩ := h
  have hi1 : (i + 1) * (c:Int) = i * c + c := by ring
  have hY0 : 0 ≤ i * (c:Int) := mul_nonneg nn (by omega)
  rw [hi1]
  generalize i * (c:Int) = Y at *
  intro Y' t0 tl d0 dl
  have e1 := sliceStart_of_nonneg (n := c) (a := max 0 (off - Y)) (by omega) (by omega)
  have e2 := sliceStart_of_nonneg (n := c) (a := min (c:Int) (off + N - Y)) (by omega) (by omega)
  have e3 := sliceStart_of_nonneg (n := N) (a := max 0 (Y - off)) (by omega) (by omega)
  have e4 := sliceStart_of_nonneg (n := N) (a := min (N:Int) (min (Y + c) S - off))
    (by omega) (by omega)
  have htl : tl = sliceStart c (min (c:Int) (off + N - Y)) - t0 := rfl
  have hdl : dl = sliceStart N (min (N:Int) (min (Y + c) S - off)) - d0 := rfl
  change (t0 : Int) = _ at e1
  change (d0 : Int) = _ at e3
  generalize sliceStart c (min (c:Int) (off + N - Y)) = t1 at *
  generalize sliceStart N (min (N:Int) (min (Y + c) S - off)) = d1 at *
  have hd : dl = tl := by omega
  refine ⟨hd, fun r hr => ⟨?_, ?_⟩⟩
  · change _ ↔ off ≤ Y + r ∧ Y + r < off + N
    omega
  · intro h1 h2
    change _ = (Y + r - off).toNat
    split <;> omega

/-- Read-side slice arithmetic along one axis. -/
theorem axis_read {S c N : Nat} {off i : Int} (h : Axis S c off N i) :
    let Y := i * (c:Int)
    let yen := min ((i + 1) * (c:Int)) S
    let o0 := max 0 (Y - off)
    let o1 := min (N:Int) (yen - off)
    let t0 := sliceStart N o0
    let tl := sliceLen N o0 o1
    let c0 := max off Y - Y
    let c1 := min (off + N) yen - Y
    let d0 := sliceStart c c0
    let dl := sliceLen c c0 c1
    dl = tl ∧ 0 ≤ o1 - o0 ∧ (o1 - o0).toNat = tl ∧ ∀ r : Nat, r < N →
      ((t0 ≤ r ∧ r < t0 + tl) ↔ (Y ≤ off + r ∧ off + r < Y + c)) ∧
      (t0 ≤ r → r < t0 + tl → d0 + (if dl = 1 then 0 else r - t0) = (off + r - Y).toNat) := by
  obtain ⟨hc, h0, hn, hS, lo, hi, nn⟩ := h
  have hi1 : (i + 1) * (c:Int) = i * c + c := by ring
  have hY0 : 0 ≤ i * (c:Int) := mul_nonneg nn (by omega)
  rw [hi1]
  generalize i * (c:Int) = Y at *
  intro Y' yen o0 o1 t0 tl c0 c1 d0 dl
  have hY' : Y' = Y := rfl
  have ho0 : o0 = max 0 (Y - off) := rfl
  have ho1 : o1 = min (N:Int) (min (Y + c) S - off) := rfl
  have hc0 : c0 = max off Y - Y := rfl
  have hc1 : c1 = min (off + N) (min (Y + c) S) - Y := rfl
  have e1 := sliceStart_of_nonneg (n := N) (a := o0) (by omega) (by omega)
  have e2 := sliceStart_of_nonneg (n := N) (a := o1) (by omega) (by omega)
  have e3 := sliceStart_of_nonneg (n := c) (a := c0) (by omega) (by omega)
  have e4 := sliceStart_of_nonneg (n := c) (a := c1) (by omega) (by omega)
  have htl : tl = sliceStart N o1 - t0 := rfl
  have hdl : dl = sliceStart c c1 - d0 := rfl
  change (t0 : Int) = _ at e1
  change (d0 : Int) = _ at e3
  generalize sliceStart N o1 = t1 at *
  generalize sliceStart c c1 = d1 at *
  clear_value t0 tl d0 dl c0 c1 o0 o1 yen Y'
  have hd : dl = tl := by omega
  refine ⟨hd, by omega, by omega, fun r hr => ⟨?_, ?_⟩⟩
  · omega
  · intro h1 h2
    split <;> omega

/-- Effect of `setChunk` on an in-range block. -/
theorem setChunk_spec (b : CBand α) (hb : b.Inv) (w : Write α)
    (i j : Int) (ay : Axis b.ny b.cy w.yoff w.block.ny i)
    (ax : Axis b.nx b.cx w.xoff w.block.nx j) :
    ∃ b', b.setChunk w.yoff w.xoff w.block (b.mkChunk i j) = .ok b' ∧ b'.Inv ∧
      b'.ny = b.ny ∧ b'.nx = b.nx ∧ b'.cy = b.cy ∧ b'.cx = b.cx ∧ b'.init = b.init ∧
      ∀ y x : Int, 0 ≤ y → y < b.ny → 0 ≤ x → x < b.nx →
        b'.pix y x = if y / b.cy = i ∧ x / b.cx = j ∧ w.Covers y x then w.valueAt y x
          else b.pix y x := by
  obtain ⟨yoff, xoff, B⟩ := w
  simp only at ay ax
  have hil := axis_lt ay
  have hjl := axis_lt ax
  obtain ⟨hnum0, hnum1⟩ := chunk_bounds ay.nn hil ax.nn hjl
  have hlen := hb.len
  simp only [rows, cols] at hlen
  have hni : normIndex b.data.length (b.mkChunk i j).num
      = some (i * ceilDiv (b.nx:Int) b.cx + j).toNat := by
    apply normIndex_of_lt
    · exact hnum0
    · rw [hlen]; exact hnum1
  set n := (i * ceilDiv (b.nx:Int) b.cx + j).toNat with hn
  have hnlt : n < b.data.length := by
    have : (n : Int) = i * ceilDiv (b.nx:Int) b.cx + j := by omega
    have : (n : Int) < b.data.length := by rw [hlen, this]; exact hnum1
    omega
  obtain ⟨cd, hcd, hcdny, hcdnx⟩ : ∃ cd : Arr α,
      b.chunkData n = cd ∧ cd.ny = b.cy ∧ cd.nx = b.cx := by
    refine ⟨_, rfl, ?_, ?_⟩
    · unfold chunkData; split
      · rename_i a h; exact (hb.shape n a h).1
      · rfl
    · unfold chunkData; split
      · rename_i a h; exact (hb.shape n a h).2
      · rfl
  obtain ⟨lenY, hY⟩ := axis_write ay
  obtain ⟨lenX, hX⟩ := axis_write ax
  have hassign : ∃ cd', cd.assign (max 0 (yoff - i * b.cy)) (min (b.cy:Int) (yoff + B.ny - i * b.cy))
      (max 0 (xoff - j * b.cx)) (min (b.cx:Int) (xoff + B.nx - j * b.cx))
      (B.slice (max 0 (i * b.cy - yoff)) (min (B.ny:Int) (min ((i + 1) * b.cy) b.ny - yoff))
        (max 0 (j * b.cx - xoff)) (min (B.nx:Int) (min ((j + 1) * b.cx) b.nx - xoff))) = .ok cd' ∧
      cd'.ny = b.cy ∧ cd'.nx = b.cx ∧
      ∀ r c : Nat, r < b.cy → c < b.cx →
        cd'.get r c = if (yoff ≤ i * b.cy + r ∧ i * b.cy + r < yoff + B.ny) ∧
          xoff ≤ j * b.cx + c ∧ j * b.cx + c < xoff + B.nx then
            B.get (i * b.cy + r - yoff).toNat (j * b.cx + c - xoff).toNat
          else cd.get r c := by
    unfold Arr.assign
    simp only [hcdny, hcdnx, Arr.slice]
    refine ⟨_, by rw [if_pos ⟨Or.inl lenY, Or.inl lenX⟩], rfl, rfl, ?_⟩
    intro r c hr hc
    obtain ⟨iffY, valY⟩ := hY r hr
    obtain ⟨iffX, valX⟩ := hX c hc
    simp only
    by_cases hin : (yoff ≤ i * b.cy + r ∧ i * b.cy + r < yoff + B.ny) ∧
          xoff ≤ j * b.cx + c ∧ j * b.cx + c < xoff + B.nx
    · rw [if_pos hin]
      obtain ⟨g1, g2⟩ := hin
      rw [← iffY] at g1
      rw [← iffX] at g2
      rw [if_pos ⟨g1.1, g1.2, g2.1, g2.2⟩, valY g1.1 g1.2, valX g2.1 g2.2]
    · rw [if_neg hin, if_neg]
      rintro ⟨g1, g2, g3, g4⟩
      exact hin ⟨iffY.1 ⟨g1, g2⟩, iffX.1 ⟨g3, g4⟩⟩
  obtain ⟨cd', hcd', hny', hnx', hget'⟩ := hassign
  refine ⟨{ b with data := b.data.set n (some cd') }, ?_, ?_, rfl, rfl, rfl, rfl, rfl, ?_⟩
  · unfold setChunk
    rw [hni]
    simp only [mkChunk]
    rw [hcd, hcd']
  · refine ⟨hb.hcy, hb.hcx, ?_, ?_⟩
    · simp only [List.length_set, rows, cols]; exact hlen
    · intro m a hm
      simp only [List.getElem?_set] at hm
      split_ifs at hm
      · simp at hm; subst hm; exact ⟨hny', hnx'⟩
      · exact hb.shape m a hm
  · intro y x hy0 hy1 hx0 hx1
    have hcyI : (0:Int) < b.cy := by have := hb.hcy; omega
    have hcxI : (0:Int) < b.cx := by have := hb.hcx; omega
    have hqy0 : 0 ≤ y / (b.cy:Int) := Int.ediv_nonneg hy0 (by omega)
    have hqx0 : 0 ≤ x / (b.cx:Int) := Int.ediv_nonneg hx0 (by omega)
    have hqx1 : x / (b.cx:Int) < ceilDiv (b.nx:Int) b.cx := by
      rw [lt_ceilDiv hcxI]
      have := Int.ediv_mul_le x (show (b.cx:Int) ≠ 0 by omega); omega
    have hnn : 0 ≤ y / (b.cy:Int) * ceilDiv (b.nx:Int) b.cx + x / (b.cx:Int) := by
      have : 0 ≤ ceilDiv (b.nx:Int) b.cx := by omega
      have := mul_nonneg hqy0 this
      omega
    by_cases hch : y / (b.cy:Int) = i ∧ x / (b.cx:Int) = j
    · obtain ⟨e1, e2⟩ := hch
      have hco : b.chunkOf y x = n := by
        simp only [chunkOf, cols, e1, e2, hn]
      have hmy := emod_eq_of e1
      have hmx := emod_eq_of e2
      have hmy0 := Int.emod_nonneg y (show (b.cy:Int) ≠ 0 by omega)
      have hmx0 := Int.emod_nonneg x (show (b.cx:Int) ≠ 0 by omega)
      have hmy1 := Int.emod_lt_of_pos y hcyI
      have hmx1 := Int.emod_lt_of_pos x hcxI
      have hL : ({ b with data := b.data.set n (some cd') } : CBand α).pix y x
          = cd'.get (y % b.cy).toNat (x % b.cx).toNat := by
        unfold pix
        have : ({ b with data := b.data.set n (some cd') } : CBand α).chunkOf y x = n := hco
        rw [this]
        simp only [chunkData, List.getElem?_set_self hnlt]
      have hR : b.pix y x = cd.get (y % b.cy).toNat (x % b.cx).toNat := by
        unfold pix
        rw [hco, hcd]
      rw [hL, hR, hget' _ _ (by omega) (by omega)]
      have ey : i * (b.cy:Int) + ((y % (b.cy:Int)).toNat : Int) = y := by omega
      have ex : j * (b.cx:Int) + ((x % (b.cx:Int)).toNat : Int) = x := by omega
      rw [ey, ex]
      simp only [e1, e2, true_and, Write.Covers, Write.valueAt, and_assoc]
    · rw [if_neg (by tauto)]
      have hco : b.chunkOf y x ≠ n := by
        intro h
        simp only [chunkOf, cols, hn] at h
        have h' : y / (b.cy:Int) * ceilDiv (b.nx:Int) b.cx + x / (b.cx:Int)
            = i * ceilDiv (b.nx:Int) b.cx + j := by omega
        exact hch (chunk_inj hqx0 hqx1 ax.nn hjl h')
      unfold pix
      have : ({ b with data := b.data.set n (some cd') } : CBand α).chunkOf y x
          = b.chunkOf y x := rfl
      rw [this]
      simp only [chunkData]
      rw [List.getElem?_set_ne (Ne.symm hco)]

/-- Effect of the `setblock` loop over any list of chunk coordinates touched by the block. -/
theorem setLoop_spec (w : Write α) (ijs : List (Int × Int)) :
    ∀ b : CBand α, b.Inv →
      (∀ p ∈ ijs, Axis b.ny b.cy w.yoff w.block.ny p.1 ∧ Axis b.nx b.cx w.xoff w.block.nx p.2) →
    ∃ b', setLoop w.yoff w.xoff w.block (ijs.map fun p => b.mkChunk p.1 p.2) b = (b', none) ∧
      b'.Inv ∧ b'.ny = b.ny ∧ b'.nx = b.nx ∧ b'.cy = b.cy ∧ b'.cx = b.cx ∧ b'.init = b.init ∧
      ∀ y x : Int, 0 ≤ y → y < b.ny → 0 ≤ x → x < b.nx →
        b'.pix y x = if (y / (b.cy:Int), x / (b.cx:Int)) ∈ ijs ∧ w.Covers y x then w.valueAt y x
          else b.pix y x := by
  induction ijs with
  | nil => intro b hb _; exact ⟨b, rfl, hb, rfl, rfl, rfl, rfl, rfl, by simp⟩
  | cons p ps ih =>
    intro b hb hax
    obtain ⟨ay, ax⟩ := hax p (by simp)
    obtain ⟨b1, h1, i1, n1, n2, n3, n4, n5, v1⟩ := setChunk_spec b hb w p.1 p.2 ay ax
    have hmk : ∀ i j, b1.mkChunk i j = b.mkChunk i j := by
      intro i j; simp only [mkChunk, n1, n2, n3, n4]
    obtain ⟨b2, h2, i2, m1, m2, m3, m4, m5, v2⟩ := ih b1 i1 (by
      intro q hq
      rw [n1, n2, n3, n4]
      exact hax q (by simp [hq]))
    refine ⟨b2, ?_, i2, m1.trans n1, m2.trans n2, m3.trans n3, m4.trans n4, m5.trans n5, ?_⟩
    · simp only [List.map_cons, setLoop, h1]
      simp only [hmk] at h2
      exact h2
    · intro y x hy0 hy1 hx0 hx1
      rw [v2 y x hy0 (by omega) hx0 (by omega), v1 y x hy0 hy1 hx0 hx1, n3, n4]
      simp only [List.mem_cons, Prod.ext_iff]
      by_cases hc : w.Covers y x
      · by_cases hq : (y / (b.cy:Int), x / (b.cx:Int)) ∈ ps
        · simp [hc, hq]
        · simp [hc, hq]
      · simp [hc]

/-- Chunk coordinates enumerated by `_getchunks`. -/
def chunkIdx (b : CBand α) (yoff xoff ny nx : Int) : List (Int × Int) :=
  (range1 (yoff / b.cy) (ceilDiv (yoff + ny) b.cy)).flatMap fun i =>
    (range1 (xoff / b.cx) (ceilDiv (xoff + nx) b.cx)).map fun j => (i, j)

theorem getchunks_map (b : CBand α) (yoff xoff ny nx : Int) :
    b.getchunks yoff xoff ny nx = (b.chunkIdx yoff xoff ny nx).map fun p => b.mkChunk p.1 p.2 := by
  rw [getchunks_eq, chunkIdx, List.map_flatMap]
  simp only [List.map_map]
  rfl

theorem mem_chunkIdx {b : CBand α} {yoff xoff ny nx : Int} {p : Int × Int} :
    p ∈ b.chunkIdx yoff xoff ny nx ↔
      p.1 ∈ range1 (yoff / b.cy) (ceilDiv (yoff + ny) b.cy) ∧
      p.2 ∈ range1 (xoff / b.cx) (ceilDiv (xoff + nx) b.cx) := by
  obtain ⟨i, j⟩ := p
  simp only [chunkIdx, List.mem_flatMap, List.mem_map, Prod.mk.injEq]
  constructor
  · rintro ⟨i', hi, j', hj, rfl, rfl⟩; exact ⟨hi, hj⟩
  · rintro ⟨hi, hj⟩; exact ⟨i, hi, j, hj, rfl, rfl⟩

/-- `setblock` on an in-range block is a pointwise update. -/
theorem setblock_spec (b : CBand α) (hb : b.Inv) (w : Write α) (hw : w.Fits b.ny b.nx) :
    ∃ b', b.setblock w.yoff w.xoff w.block = (b', none) ∧
      b'.Inv ∧ b'.ny = b.ny ∧ b'.nx = b.nx ∧ b'.cy = b.cy ∧ b'.cx = b.cx ∧ b'.init = b.init ∧
      ∀ y x : Int, 0 ≤ y → y < b.ny → 0 ≤ x → x < b.nx →
        b'.pix y x = if w.Covers y x then w.valueAt y x else b.pix y x := by
  obtain ⟨h0, h1, h2, h3, h4, h5⟩ := hw
  obtain ⟨b', e, i, n1, n2, n3, n4, n5, v⟩ :=
    setLoop_spec w (b.chunkIdx w.yoff w.xoff w.block.ny w.block.nx) b hb (by
      intro p hp
      rw [mem_chunkIdx] at hp
      exact ⟨axis_of_mem hb.hcy h0 h2 h4 hp.1, axis_of_mem hb.hcx h1 h3 h5 hp.2⟩)
  refine ⟨b', ?_, i, n1, n2, n3, n4, n5, ?_⟩
  · rw [setblock, getchunks_map]; exact e
  · intro y x hy0 hy1 hx0 hx1
    rw [v y x hy0 hy1 hx0 hx1]
    by_cases hc : w.Covers y x
    · have : (y / (b.cy:Int), x / (b.cx:Int)) ∈
          b.chunkIdx w.yoff w.xoff w.block.ny w.block.nx := by
        rw [mem_chunkIdx]
        exact ⟨mem_of_covers hb.hcy hc.1 hc.2.1, mem_of_covers hb.hcx hc.2.2.1 hc.2.2.2⟩
      simp [hc, this]
    · simp [hc]

/-- Effect of `getChunk` on an in-range window. -/
theorem getChunk_spec (b : CBand α) (hb : b.Inv) (yoff xoff : Int) (N M : Nat)
    (i j : Int) (ay : Axis b.ny b.cy yoff N i) (ax : Axis b.nx b.cx xoff M j)
    (res : Arr (Option α)) (hr1 : res.ny = N) (hr2 : res.nx = M) :
    ∃ res', b.getChunk yoff xoff N M res (b.mkChunk i j) = .ok res' ∧
      res'.ny = N ∧ res'.nx = M ∧
      ∀ r c : Nat, r < N → c < M →
        res'.get r c = if (yoff + r) / b.cy = i ∧ (xoff + c) / b.cx = j
          then some (b.pix (yoff + r) (xoff + c)) else res.get r c := by
  have hil := axis_lt ay
  have hjl := axis_lt ax
  obtain ⟨hnum0, hnum1⟩ := chunk_bounds ay.nn hil ax.nn hjl
  have hlen := hb.len
  simp only [rows, cols] at hlen
  have hni : normIndex b.data.length (b.mkChunk i j).num
      = some (i * ceilDiv (b.nx:Int) b.cx + j).toNat := by
    apply normIndex_of_lt
    · exact hnum0
    · rw [hlen]; exact hnum1
  have hcyI : (0:Int) < b.cy := by have := hb.hcy; omega
  have hcxI : (0:Int) < b.cx := by have := hb.hcx; omega
  obtain ⟨lenY, pY, qY, hY⟩ := axis_read ay
  obtain ⟨lenX, pX, qX, hX⟩ := axis_read ax
  have hdivY : ∀ r : Nat, (yoff + r) / (b.cy:Int) = i ↔
      (i * b.cy ≤ yoff + r ∧ yoff + r < i * (b.cy:Int) + b.cy) := by
    intro r
    constructor
    · intro h
      have h1 := Int.ediv_mul_le (yoff + r) (show (b.cy:Int) ≠ 0 by omega)
      have h2 := Int.lt_ediv_add_one_mul_self (yoff + r) hcyI
      rw [h] at h1 h2
      rw [add_mul] at h2
      omega
    · rintro ⟨h1, h2⟩; exact ediv_eq_of hcyI h1 h2
  have hdivX : ∀ c : Nat, (xoff + c) / (b.cx:Int) = j ↔
      (j * b.cx ≤ xoff + c ∧ xoff + c < j * (b.cx:Int) + b.cx) := by
    intro r
    constructor
    · intro h
      have h1 := Int.ediv_mul_le (xoff + r) (show (b.cx:Int) ≠ 0 by omega)
      have h2 := Int.lt_ediv_add_one_mul_self (xoff + r) hcxI
      rw [h] at h1 h2
      rw [add_mul] at h2
      omega
    · rintro ⟨h1, h2⟩; exact ediv_eq_of hcxI h1 h2
  have hpix : ∀ r c : Nat, (yoff + r) / (b.cy:Int) = i → (xoff + c) / (b.cx:Int) = j →
      b.pix (yoff + r) (xoff + c) = (b.chunkData (i * ceilDiv (b.nx:Int) b.cx + j).toNat).get
        (yoff + r - i * b.cy).toNat (xoff + c - j * b.cx).toNat := by
    intro r c h1 h2
    unfold pix chunkOf cols
    rw [h1, h2, emod_eq_of h1, emod_eq_of h2]
  unfold getChunk
  rw [hni]
  simp only [mkChunk]
  cases hd : b.data[(i * ceilDiv (b.nx:Int) b.cx + j).toNat]? with
  | none =>
    have hcd : b.chunkData (i * ceilDiv (b.nx:Int) b.cx + j).toNat
        = ⟨b.cy, b.cx, fun _ _ => b.init⟩ := by unfold chunkData; rw [hd]
    simp only [Arr.full, pY, pX, and_self, if_true]
    unfold Arr.assign
    simp only [hr1, hr2]
    refine ⟨_, by rw [if_pos ⟨Or.inl qY, Or.inl qX⟩], rfl, rfl, ?_⟩
    intro r c hr hc
    obtain ⟨iffY, valY⟩ := hY r hr
    obtain ⟨iffX, valX⟩ := hX c hc
    simp only
    by_cases hin : (yoff + r) / (b.cy:Int) = i ∧ (xoff + c) / (b.cx:Int) = j
    · rw [if_pos hin, hpix r c hin.1 hin.2, hcd]
      have g1 := iffY.2 ((hdivY r).1 hin.1)
      have g2 := iffX.2 ((hdivX c).1 hin.2)
      rw [if_pos ⟨g1.1, g1.2, g2.1, g2.2⟩]
    · rw [if_neg hin, if_neg]
      rintro ⟨g1, g2, g3, g4⟩
      exact hin ⟨(hdivY r).2 (iffY.1 ⟨g1, g2⟩), (hdivX c).2 (iffX.1 ⟨g3, g4⟩)⟩
  | some o =>
    cases o with
    | none =>
      have hcd : b.chunkData (i * ceilDiv (b.nx:Int) b.cx + j).toNat
          = ⟨b.cy, b.cx, fun _ _ => b.init⟩ := by unfold chunkData; rw [hd]
      simp only [Arr.full, pY, pX, and_self, if_true]
      unfold Arr.assign
      simp only [hr1, hr2]
      refine ⟨_, by rw [if_pos ⟨Or.inl qY, Or.inl qX⟩], rfl, rfl, ?_⟩
      intro r c hr hc
      obtain ⟨iffY, valY⟩ := hY r hr
      obtain ⟨iffX, valX⟩ := hX c hc
      simp only
      by_cases hin : (yoff + r) / (b.cy:Int) = i ∧ (xoff + c) / (b.cx:Int) = j
      · rw [if_pos hin, hpix r c hin.1 hin.2, hcd]
        have g1 := iffY.2 ((hdivY r).1 hin.1)
        have g2 := iffX.2 ((hdivX c).1 hin.2)
        rw [if_pos ⟨g1.1, g1.2, g2.1, g2.2⟩]
      · rw [if_neg hin, if_neg]
        rintro ⟨g1, g2, g3, g4⟩
        exact hin ⟨(hdivY r).2 (iffY.1 ⟨g1, g2⟩), (hdivX c).2 (iffX.1 ⟨g3, g4⟩)⟩
    | some a =>
      have hcd : b.chunkData (i * ceilDiv (b.nx:Int) b.cx + j).toNat = a := by
        unfold chunkData; rw [hd]
      obtain ⟨s1, s2⟩ := hb.shape _ a hd
      unfold Arr.assign
      simp only [hr1, hr2, Arr.slice, Arr.map, s1, s2]
      refine ⟨_, by rw [if_pos ⟨Or.inl lenY, Or.inl lenX⟩], rfl, rfl, ?_⟩
      intro r c hr hc
      obtain ⟨iffY, valY⟩ := hY r hr
      obtain ⟨iffX, valX⟩ := hX c hc
      simp only
      by_cases hin : (yoff + r) / (b.cy:Int) = i ∧ (xoff + c) / (b.cx:Int) = j
      · rw [if_pos hin, hpix r c hin.1 hin.2, hcd]
        have g1 := iffY.2 ((hdivY r).1 hin.1)
        have g2 := iffX.2 ((hdivX c).1 hin.2)
        rw [if_pos ⟨g1.1, g1.2, g2.1, g2.2⟩, valY g1.1 g1.2, valX g2.1 g2.2]
      · rw [if_neg hin, if_neg]
        rintro ⟨g1, g2, g3, g4⟩
        exact hin ⟨(hdivY r).2 (iffY.1 ⟨g1, g2⟩), (hdivX c).2 (iffX.1 ⟨g3, g4⟩)⟩

theorem getLoop_spec (b : CBand α) (hb : b.Inv) (yoff xoff : Int) (N M : Nat)
    (ijs : List (Int × Int))
    (hax : ∀ p ∈ ijs, Axis b.ny b.cy yoff N p.1 ∧ Axis b.nx b.cx xoff M p.2) :
    ∀ res : Arr (Option α), res.ny = N → res.nx = M →
    ∃ res', b.getLoop yoff xoff N M (ijs.map fun p => b.mkChunk p.1 p.2) res = .ok res' ∧
      res'.ny = N ∧ res'.nx = M ∧
      ∀ r c : Nat, r < N → c < M →
        res'.get r c = if ((yoff + r) / (b.cy:Int), (xoff + c) / (b.cx:Int)) ∈ ijs
          then some (b.pix (yoff + r) (xoff + c)) else res.get r c := by
  induction ijs with
  | nil => intro res h1 h2; exact ⟨res, rfl, h1, h2, by simp⟩
  | cons p ps ih =>
    intro res h1 h2
    obtain ⟨ay, ax⟩ := hax p (by simp)
    obtain ⟨r1, e1, a1, a2, v1⟩ := getChunk_spec b hb yoff xoff N M p.1 p.2 ay ax res h1 h2
    obtain ⟨r2, e2, b1, b2, v2⟩ := ih (fun q hq => hax q (by simp [hq])) r1 a1 a2
    refine ⟨r2, ?_, b1, b2, ?_⟩
    · simp only [List.map_cons, getLoop, e1]; exact e2
    · intro r c hr hc
      rw [v2 r c hr hc, v1 r c hr hc]
      simp only [List.mem_cons, Prod.ext_iff]
      by_cases hq : ((yoff + r) / (b.cy:Int), (xoff + c) / (b.cx:Int)) ∈ ps
      · simp [hq]
      · simp [hq]

/-- `getblock` on an in-range window returns the pixels of the window. -/
theorem getblock_spec (b : CBand α) (hb : b.Inv) (yoff xoff ny nx : Int)
    (h : InRange b.ny b.nx yoff xoff ny nx) :
    ∃ res, b.getblock yoff xoff ny nx = .ok res ∧ res.ny = ny.toNat ∧ res.nx = nx.toNat ∧
      ∀ r c : Nat, r < ny.toNat → c < nx.toNat →
        res.get r c = some (b.pix (yoff + r) (xoff + c)) := by
  obtain ⟨h0, h1, h2, h3, h4, h5⟩ := h
  lift ny to Nat using h2
  lift nx to Nat using h3
  obtain ⟨res, e, a1, a2, v⟩ := getLoop_spec b hb yoff xoff ny nx
    (b.chunkIdx yoff xoff ny nx) (by
      intro p hp
      rw [mem_chunkIdx] at hp
      exact ⟨axis_of_mem hb.hcy h0 (by omega) h4 hp.1, axis_of_mem hb.hcx h1 (by omega) h5 hp.2⟩)
    ⟨ny, nx, fun _ _ => none⟩ rfl rfl
  refine ⟨res, ?_, by simpa using a1, by simpa using a2, ?_⟩
  · unfold getblock
    rw [if_pos (by omega), getchunks_map]
    simpa using e
  · intro r c hr hc
    simp only [Int.toNat_natCast] at hr hc
    rw [v r c hr hc, if_pos]
    rw [mem_chunkIdx]
    exact ⟨mem_of_covers hb.hcy (by omega) (by omega), mem_of_covers hb.hcx (by omega) (by omega)⟩

theorem assign_ok {A B A' : Arr α} {y0 y1 x0 x1 : Int} (h : A.assign y0 y1 x0 x1 B = .ok A') :
    ((B.ny = sliceLen A.ny y0 y1 ∨ B.ny = 1) ∧ (B.nx = sliceLen A.nx x0 x1 ∨ B.nx = 1)) ∧
    A'.ny = A.ny ∧ A'.nx = A.nx ∧ ∀ r c,
      ¬ (sliceStart A.ny y0 ≤ r ∧ r < sliceStart A.ny y0 + sliceLen A.ny y0 y1 ∧
        sliceStart A.nx x0 ≤ c ∧ c < sliceStart A.nx x0 + sliceLen A.nx x0 x1) →
      A'.get r c = A.get r c := by
  unfold Arr.assign at h
  by_cases hc : (B.ny = sliceLen A.ny y0 y1 ∨ B.ny = 1) ∧ (B.nx = sliceLen A.nx x0 x1 ∨ B.nx = 1)
  · simp only [hc] at h
    simp only [and_self, if_true, Except.ok.injEq] at h
    subst h
    refine ⟨hc, rfl, rfl, ?_⟩
    intro r c hn
    exact if_neg hn
  · simp only [hc] at h
    simp at h

/-- Write-side frame: whatever the source block, only rows of the block can be touched. -/
theorem axis_frame {c : Nat} {off n i : Int} (hc : 0 < c) (lo : off < i * c + c)
    (hi : i * c < off + n) (r : Nat)
    (h1 : sliceStart c (max 0 (off - i * c)) ≤ r)
    (h2 : r < sliceStart c (max 0 (off - i * c)) +
      sliceLen c (max 0 (off - i * c)) (min (c:Int) (off + n - i * c))) :
    off ≤ i * c + r ∧ i * c + r < off + n := by
  have e1 := sliceStart_of_nonneg (n := c) (a := max 0 (off - i * c)) (by omega) (by omega)
  have e2 := sliceStart_of_nonneg (n := c) (a := min (c:Int) (off + n - i * c))
    (by omega) (by omega)
  unfold sliceLen at h2
  omega

theorem chunkData_shape {b : CBand α} (hb : b.Inv) (n : Nat) :
    (b.chunkData n).ny = b.cy ∧ (b.chunkData n).nx = b.cx := by
  unfold chunkData; split
  · rename_i a h; exact hb.shape n a h
  · exact ⟨rfl, rfl⟩

/-- Frame of one chunk update with an arbitrary (possibly overflowing) block. -/
theorem setChunk_frame (b : CBand α) (hb : b.Inv) (w : Write α) (i j : Int)
    (hi0 : 0 ≤ i) (hj0 : 0 ≤ j)
    (ylo : w.yoff < i * b.cy + b.cy) (yhi : i * b.cy < w.yoff + w.block.ny)
    (xlo : w.xoff < j * b.cx + b.cx) (xhi : j * b.cx < w.xoff + w.block.nx)
    (hx0 : 0 ≤ w.xoff) (hxW : w.xoff ≤ b.nx)
    (b' : CBand α) (hok : b.setChunk w.yoff w.xoff w.block (b.mkChunk i j) = .ok b') :
    b'.Inv ∧ b'.ny = b.ny ∧ b'.nx = b.nx ∧ b'.cy = b.cy ∧ b'.cx = b.cx ∧ b'.init = b.init ∧
      ∀ y x : Int, 0 ≤ y → y < b.ny → 0 ≤ x → x < b.nx → ¬ w.Covers y x →
        b'.pix y x = b.pix y x := by
  obtain ⟨yoff, xoff, B⟩ := w
  simp only at *
  have hcyI : (0:Int) < b.cy := by have := hb.hcy; omega
  have hcxI : (0:Int) < b.cx := by have := hb.hcx; omega
  have hlen := hb.len
  simp only [rows, cols] at hlen
  -- the column must be inside the chunk grid
  have hjl : j < ceilDiv (b.nx:Int) b.cx := by
    by_contra hcon
    have hge : (b.nx:Int) ≤ j * b.cx := by
      by_contra h'
      exact hcon ((lt_ceilDiv hcxI j).2 (by omega))
    unfold setChunk at hok
    split at hok
    · cases hok
    · rename_i n hn
      dsimp only at hok
      split at hok
      · cases hok
      · rename_i cd' hcd'
        simp only [mkChunk] at hcd'
        obtain ⟨⟨-, hx⟩, -⟩ := assign_ok hcd'
        · have hshape := (chunkData_shape hb n).2
          simp only [Arr.slice, sliceLen, hshape] at hx
          have e1 := sliceStart_of_nonneg (n := b.cx) (a := max 0 (xoff - j * b.cx))
            (by omega) (by omega)
          have e2 := sliceStart_of_nonneg (n := b.cx)
            (a := min (b.cx:Int) (xoff + B.nx - j * b.cx)) (by omega) (by omega)
          have e3 := sliceStart_of_nonneg (n := B.nx) (a := max 0 (j * b.cx - xoff))
            (by omega) (by omega)
          have hj1 : (j + 1) * (b.cx:Int) = j * b.cx + b.cx := by ring
          have e4 := sliceStart_of_nonneg (n := B.nx)
            (a := min (B.nx:Int) (min ((j + 1) * b.cx) b.nx - xoff)) (by omega) (by omega)
          omega
  unfold setChunk at hok
  split at hok
  · cases hok
  · rename_i n hn
    dsimp only at hok
    split at hok
    · cases hok
    · rename_i cd' hcd'
      simp only [Except.ok.injEq] at hok
      subst hok
      have hnum : (b.mkChunk i j).num = i * ceilDiv (b.nx:Int) b.cx + j := rfl
      have hm0 : 0 ≤ i * ceilDiv (b.nx:Int) b.cx + j := by
        have := mul_nonneg hi0 (show 0 ≤ ceilDiv (b.nx:Int) b.cx by omega); omega
      have hnn : n = (i * ceilDiv (b.nx:Int) b.cx + j).toNat ∧ n < b.data.length := by
        unfold normIndex at hn
        rw [hnum, if_pos hm0] at hn
        split at hn
        · rename_i hlt
          simp only [Option.some.injEq] at hn
          exact ⟨hn.symm, by omega⟩
        · cases hn
      obtain ⟨hn1, hnlt⟩ := hnn
      obtain ⟨sh1, sh2⟩ := chunkData_shape hb n
      have hcd2 : cd'.ny = b.cy ∧ cd'.nx = b.cx ∧ ∀ r c : Nat, r < b.cy → c < b.cx →
          ¬ ((yoff ≤ i * b.cy + r ∧ i * b.cy + r < yoff + B.ny) ∧
            (xoff ≤ j * b.cx + c ∧ j * b.cx + c < xoff + B.nx)) →
          cd'.get r c = (b.chunkData n).get r c := by
        simp only [mkChunk] at hcd'
        obtain ⟨-, k1, k2, k3⟩ := assign_ok hcd'
        refine ⟨k1.trans sh1, k2.trans sh2, ?_⟩
        intro r c hr hc hnot
        apply k3
        rw [sh1, sh2]
        rintro ⟨g1, g2, g3, g4⟩
        exact hnot ⟨axis_frame hb.hcy ylo yhi r g1 g2, axis_frame hb.hcx xlo xhi c g3 g4⟩
      obtain ⟨hny', hnx', hget'⟩ := hcd2
      refine ⟨⟨hb.hcy, hb.hcx, ?_, ?_⟩, rfl, rfl, rfl, rfl, rfl, ?_⟩
      · simp only [List.length_set, rows, cols]; exact hlen
      · intro m a hm
        simp only [List.getElem?_set] at hm
        split_ifs at hm
        · simp at hm; subst hm; exact ⟨hny', hnx'⟩
        · exact hb.shape m a hm
      · intro y x hy0 hy1 hx0' hx1 hnc
        have hqy0 : 0 ≤ y / (b.cy:Int) := Int.ediv_nonneg hy0 (by omega)
        have hqx0 : 0 ≤ x / (b.cx:Int) := Int.ediv_nonneg hx0' (by omega)
        have hqx1 : x / (b.cx:Int) < ceilDiv (b.nx:Int) b.cx := by
          rw [lt_ceilDiv hcxI]
          have := Int.ediv_mul_le x (show (b.cx:Int) ≠ 0 by omega); omega
        have hnn : 0 ≤ y / (b.cy:Int) * ceilDiv (b.nx:Int) b.cx + x / (b.cx:Int) := by
          have : 0 ≤ ceilDiv (b.nx:Int) b.cx := by omega
          have := mul_nonneg hqy0 this
          omega
        unfold pix
        have hco' : ({ b with data := b.data.set n (some cd') } : CBand α).chunkOf y x
            = b.chunkOf y x := rfl
        rw [hco']
        by_cases hch : y / (b.cy:Int) = i ∧ x / (b.cx:Int) = j
        · obtain ⟨e1, e2⟩ := hch
          have hco : b.chunkOf y x = n := by simp only [chunkOf, cols, e1, e2, hn1]
          have hmy := emod_eq_of e1
          have hmx := emod_eq_of e2
          have hmy0 := Int.emod_nonneg y (show (b.cy:Int) ≠ 0 by omega)
          have hmx0 := Int.emod_nonneg x (show (b.cx:Int) ≠ 0 by omega)
          have hmy1 := Int.emod_lt_of_pos y hcyI
          have hmx1 := Int.emod_lt_of_pos x hcxI
          rw [hco]
          have hL : ({ b with data := b.data.set n (some cd') } : CBand α).chunkData n = cd' := by
            simp only [chunkData, List.getElem?_set_self hnlt]
          rw [hL]
          refine hget' (y % (b.cy:Int)).toNat (x % (b.cx:Int)).toNat (by omega) (by omega) ?_
          intro hin
          apply hnc
          simp only [Write.Covers]
          omega
        · have hco : b.chunkOf y x ≠ n := by
            intro h
            simp only [chunkOf, cols, hn1] at h
            have h' : y / (b.cy:Int) * ceilDiv (b.nx:Int) b.cx + x / (b.cx:Int)
                = i * ceilDiv (b.nx:Int) b.cx + j := by omega
            exact hch (chunk_inj hqx0 hqx1 hj0 hjl h')
          simp only [chunkData]
          rw [List.getElem?_set_ne (Ne.symm hco)]

theorem setLoop_frame (w : Write α) (ijs : List (Int × Int)) :
    ∀ b : CBand α, b.Inv → 0 ≤ w.xoff → w.xoff ≤ b.nx →
      (∀ p ∈ ijs, 0 ≤ p.1 ∧ 0 ≤ p.2 ∧ w.yoff < p.1 * b.cy + b.cy ∧
        p.1 * b.cy < w.yoff + w.block.ny ∧ w.xoff < p.2 * b.cx + b.cx ∧
        p.2 * b.cx < w.xoff + w.block.nx) →
    let b' := (setLoop w.yoff w.xoff w.block (ijs.map fun p => b.mkChunk p.1 p.2) b).1
    b'.Inv ∧ b'.ny = b.ny ∧ b'.nx = b.nx ∧
      ∀ y x : Int, 0 ≤ y → y < b.ny → 0 ≤ x → x < b.nx → ¬ w.Covers y x →
        b'.pix y x = b.pix y x := by
  induction ijs with
  | nil => intro b hb _ _ _; exact ⟨hb, rfl, rfl, fun _ _ _ _ _ _ _ => rfl⟩
  | cons p ps ih =>
    intro b hb h0 h1 hax
    obtain ⟨q1, q2, q3, q4, q5, q6⟩ := hax p (by simp)
    simp only [List.map_cons, setLoop]
    split
    · exact ⟨hb, rfl, rfl, fun _ _ _ _ _ _ _ => rfl⟩
    · rename_i b1 hb1
      obtain ⟨i1, n1, n2, n3, n4, -, v1⟩ :=
        setChunk_frame b hb w p.1 p.2 q1 q2 q3 q4 q5 q6 h0 h1 b1 hb1
      have hmk : ∀ i j, b1.mkChunk i j = b.mkChunk i j := by
        intro i j; simp only [mkChunk, n1, n2, n3, n4]
      obtain ⟨i2, m1, m2, v2⟩ := ih b1 i1 h0 (by omega) (by
        intro q hq
        rw [n3, n4]
        exact hax q (by simp [hq]))
      simp only [hmk] at i2 m1 m2 v2
      refine ⟨i2, m1.trans n1, m2.trans n2, ?_⟩
      intro y x hy0 hy1 hx0 hx1 hnc
      rw [v2 y x hy0 (by omega) hx0 (by omega) hnc, v1 y x hy0 hy1 hx0 hx1 hnc]

theorem setblock_frame (b : CBand α) (hb : b.Inv) (w : Write α)
    (hy : 0 ≤ w.yoff) (hx : 0 ≤ w.xoff) (hxW : w.xoff ≤ b.nx) :
    let b' := (b.setblock w.yoff w.xoff w.block).1
    b'.Inv ∧ b'.ny = b.ny ∧ b'.nx = b.nx ∧
      ∀ y x : Int, 0 ≤ y → y < b.ny → 0 ≤ x → x < b.nx → ¬ w.Covers y x →
        b'.pix y x = b.pix y x := by
  unfold setblock
  rw [getchunks_map]
  apply setLoop_frame w _ b hb hx hxW
  intro p hp
  rw [mem_chunkIdx, mem_range1, mem_range1] at hp
  obtain ⟨⟨a1, a2⟩, a3, a4⟩ := hp
  have hcyI : (0:Int) < b.cy := by have := hb.hcy; omega
  have hcxI : (0:Int) < b.cx := by have := hb.hcx; omega
  have g1 : 0 ≤ w.yoff / (b.cy:Int) := Int.ediv_nonneg hy (by omega)
  have g2 : 0 ≤ w.xoff / (b.cx:Int) := Int.ediv_nonneg hx (by omega)
  refine ⟨by omega, by omega, ?_, (lt_ceilDiv hcyI _).1 a2, ?_, (lt_ceilDiv hcxI _).1 a4⟩
  · have := (Int.ediv_lt_iff_lt_mul hcyI).1 (show w.yoff / (b.cy:Int) < p.1 + 1 by omega)
    linarith [add_mul p.1 1 (b.cy:Int)]
  · have := (Int.ediv_lt_iff_lt_mul hcxI).1 (show w.xoff / (b.cx:Int) < p.2 + 1 by omega)
    linarith [add_mul p.2 1 (b.cx:Int)]

/-- The writes of a history as raw arguments. -/
def args (ws : List (Write α)) : List (Int × Int × Arr α) :=
  ws.map fun w => (w.yoff, w.xoff, w.block)

theorem lastWritten_append (init : α) (ws : List (Write α)) (w : Write α) (y x : Int) :
    lastWritten init (ws ++ [w]) y x =
      if w.Covers y x then w.valueAt y x else lastWritten init ws y x := by
  unfold lastWritten
  simp only [List.reverse_append, List.reverse_cons, List.reverse_nil, List.nil_append,
    List.cons_append, List.find?_cons]
  by_cases h : w.Covers y x <;> simp [h]

theorem run_append (ws ws' : List (Int × Int × Arr α)) :
    ∀ b b' : CBand α, CBand.run ws b = (b', none) →
      CBand.run (ws ++ ws') b = CBand.run ws' b' := by
  induction ws with
  | nil => intro b b' h; simp [run] at h; subst h; rfl
  | cons w ws ih =>
    intro b b' h
    obtain ⟨yo, xo, a⟩ := w
    simp only [List.cons_append, run] at h ⊢
    split at h
    · simp at h
    · rename_i b1 hb1
      exact ih b1 b' h

/-- Running an in-range history never fails and yields the "last write wins" picture. -/
theorem run_spec (H W cy cx : Nat) (hcy : 0 < cy) (hcx : 0 < cx) (init : α)
    (ws : List (Write α)) (hws : ∀ w ∈ ws, w.Fits H W) :
    ∃ b, CBand.run (args ws) (CBand.new H W cy cx init) = (b, none) ∧ b.Inv ∧
      b.ny = H ∧ b.nx = W ∧ b.cy = cy ∧ b.cx = cx ∧
      ∀ y x : Int, 0 ≤ y → y < H → 0 ≤ x → x < W → b.pix y x = lastWritten init ws y x := by
  induction ws using List.reverseRecOn with
  | nil =>
    refine ⟨CBand.new H W cy cx init, rfl, new_inv _ _ _ _ _ hcy hcx, rfl, rfl, rfl, rfl, ?_⟩
    intro y x _ _ _ _
    rw [new_pix]; rfl
  | append_singleton ws w ih =>
    obtain ⟨b, hb, hi, h1, h2, h3, h4, hv⟩ := ih (fun v hv => hws v (by simp [hv]))
    obtain ⟨b', hb', hi', k1, k2, k3, k4, -, hv'⟩ :=
      setblock_spec b hi w (by rw [h1, h2]; exact hws w (by simp))
    refine ⟨b', ?_, hi', k1.trans h1, k2.trans h2, k3.trans h3, k4.trans h4, ?_⟩
    · have : args (ws ++ [w]) = args ws ++ args [w] := by simp [args]
      rw [this, run_append _ _ _ b hb]
      simp only [args, List.map_cons, List.map_nil, run, hb']
    · intro y x a1 a2 a3 a4
      rw [hv' y x a1 (by omega) a3 (by omega), lastWritten_append, hv y x a1 a2 a3 a4]

end CBand

namespace SBand

theorem assign_full (A B : Arr α) (yoff xoff : Int)
    (h : InRange A.ny A.nx yoff xoff B.ny B.nx) :
    ∃ A', A.assign yoff (yoff + B.ny) xoff (xoff + B.nx) B = .ok A' ∧
      A'.ny = A.ny ∧ A'.nx = A.nx ∧
      ∀ r c : Nat, A'.get r c =
        if (⟨yoff, xoff, B⟩ : Write α).Covers r c then (⟨yoff, xoff, B⟩ : Write α).valueAt r c
        else A.get r c := by
  obtain ⟨h0, h1, h2, h3, h4, h5⟩ := h
  have e1 := sliceStart_of_nonneg (n := A.ny) (a := yoff) (by omega) (by omega)
  have e2 := sliceStart_of_nonneg (n := A.ny) (a := yoff + B.ny) (by omega) (by omega)
  have e3 := sliceStart_of_nonneg (n := A.nx) (a := xoff) (by omega) (by omega)
  have e4 := sliceStart_of_nonneg (n := A.nx) (a := xoff + B.nx) (by omega) (by omega)
  unfold Arr.assign
  refine ⟨_, if_pos (by simp only [sliceLen]; omega), rfl, rfl, ?_⟩
  intro r c
  have l1 : sliceLen A.ny yoff (yoff + B.ny) = B.ny := by unfold sliceLen; omega
  have l2 : sliceLen A.nx xoff (xoff + B.nx) = B.nx := by unfold sliceLen; omega
  have hcov : (⟨yoff, xoff, B⟩ : Write α).Covers r c ↔
      (yoff ≤ r ∧ (r:Int) < yoff + B.ny ∧ xoff ≤ c ∧ (c:Int) < xoff + B.nx) := Iff.rfl
  by_cases hin : (⟨yoff, xoff, B⟩ : Write α).Covers r c
  · rw [if_pos hin]
    rw [hcov] at hin
    refine (if_pos (by omega)).trans ?_
    simp only [Write.valueAt]
    congr 1
    · split <;> omega
    · split <;> omega
  · rw [if_neg hin]
    rw [hcov] at hin
    exact if_neg (by omega)

theorem run_append (ws ws' : List (Int × Int × Arr α)) :
    ∀ b b' : SBand α, SBand.run ws b = (b', none) →
      SBand.run (ws ++ ws') b = SBand.run ws' b' := by
  induction ws with
  | nil => intro b b' h; simp [run] at h; subst h; rfl
  | cons w ws ih =>
    intro b b' h
    obtain ⟨yo, xo, a⟩ := w
    simp only [List.cons_append, run] at h ⊢
    split at h
    · simp at h
    · rename_i b1 hb1
      exact ih b1 b' h

theorem run_spec (H W : Nat) (init : α)
    (ws : List (Write α)) (hws : ∀ w ∈ ws, w.Fits H W) :
    ∃ b, SBand.run (CBand.args ws) (SBand.new H W init) = (b, none) ∧
      b.array.ny = H ∧ b.array.nx = W ∧
      ∀ y x : Nat, b.array.get y x = lastWritten init ws y x := by
  induction ws using List.reverseRecOn with
  | nil => exact ⟨SBand.new H W init, rfl, rfl, rfl, fun _ _ => rfl⟩
  | append_singleton ws w ih =>
    obtain ⟨b, hb, h1, h2, hv⟩ := ih (fun v hv => hws v (by simp [hv]))
    obtain ⟨A', hA, k1, k2, hv'⟩ := assign_full b.array w.block w.yoff w.xoff
      (by rw [h1, h2]; exact hws w (by simp))
    refine ⟨⟨A'⟩, ?_, k1.trans h1, k2.trans h2, ?_⟩
    · have : CBand.args (ws ++ [w]) = CBand.args ws ++ CBand.args [w] := by simp [CBand.args]
      rw [this, run_append _ _ _ b hb]
      simp only [CBand.args, List.map_cons, List.map_nil, run, setblock, hA]
    · intro y x
      simp only
      rw [hv' y x, CBand.lastWritten_append, hv]

theorem getblock_spec (b : SBand α) (yoff xoff ny nx : Int)
    (h : InRange b.array.ny b.array.nx yoff xoff ny nx) :
    (b.getblock yoff xoff ny nx).ny = ny.toNat ∧ (b.getblock yoff xoff ny nx).nx = nx.toNat ∧
    ∀ r c : Nat, (b.getblock yoff xoff ny nx).get r c
      = b.array.get (yoff + r).toNat (xoff + c).toNat := by
  obtain ⟨h0, h1, h2, h3, h4, h5⟩ := h
  have e1 := sliceStart_of_nonneg (n := b.array.ny) (a := yoff) (by omega) (by omega)
  have e2 := sliceStart_of_nonneg (n := b.array.ny) (a := yoff + ny) (by omega) (by omega)
  have e3 := sliceStart_of_nonneg (n := b.array.nx) (a := xoff) (by omega) (by omega)
  have e4 := sliceStart_of_nonneg (n := b.array.nx) (a := xoff + nx) (by omega) (by omega)
  simp only [getblock, Arr.slice, sliceLen]
  refine ⟨by omega, by omega, fun r c => ?_⟩
  congr 1 <;> omega

end SBand
end Band
end Karta
