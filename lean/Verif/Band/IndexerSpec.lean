import Verif.Band.Spec
import Verif.Band.Indexer

/-!
Independent vocabulary for the indexing properties C05–C08.
-/

namespace Karta.Band.Spec
open Karta

variable {α : Type _}

/-- `Reach H W b P`: the band `b` is an `H × W` band obtained from a fresh
`CompressedBand` by some history of in-range `setblock` calls, and `P y x` is the value a
plain array would hold at pixel `(y, x)` after the same history. -/
inductive Reach (H W : Nat) : CBand α → (Int → Int → α) → Prop
  | new (cy cx : Nat) (hcy : 0 < cy) (hcx : 0 < cx) (init : α) :
      Reach H W (CBand.new H W cy cx init) (fun _ _ => init)
  | write {b b' : CBand α} {P : Int → Int → α} (w : Write α) (hw : w.Fits H W)
      (hr : Reach H W b P) (hs : b.setblock w.yoff w.xoff w.block = (b', none)) :
      Reach H W b' (fun y x => if w.Covers y x then w.valueAt y x else P y x)

/-- The bands of a grid and the images they should hold. -/
def Bands (H W : Nat) (bands : List (CBand α)) (Ps : List (Int → Int → α)) : Prop :=
  bands.length = Ps.length ∧
    ∀ (k : Nat) (b : CBand α) (P : Int → Int → α),
      bands[k]? = some b → Ps[k]? = some P → Reach H W b P

/-- Positions Python addresses on an axis of length `n`: an in-range integer addresses one
position (negative ones count from the end); a slice addresses `range(*s.indices(n))`.
`none` where Python raises. -/
def positions (n : Nat) : Key → Option (List Int)
  | .int i => if 0 ≤ i ∧ i < n then some [i]
      else if i < 0 ∧ 0 ≤ i + n then some [i + n] else none
  | .slice s => match s.indices n with
      | .ok (a, b, c) => some (Py.range a b c)
      | .error _ => none

/-- Bands addressed by the optional third key. -/
def bandPositions (nb : Nat) : Option Key → Option (List Int)
  | none => some ((List.range nb).map fun (k : Nat) => (k : Int))
  | some k => positions nb k

/-- Axis contributed to the result by a key item: none for an integer, one for a slice. -/
def keep (k : Key) (n : Nat) : List Nat := if k.isInt then [] else [n]

def keepB (k : Option Key) (n : Nat) : List Nat := if (k.map Key.isInt).getD false then [] else [n]

/-- A slice whose resolved bounds run against its step (e.g. `3:1`): Python and numpy give
an empty selection. -/
def Inverted (n : Nat) : Key → Prop
  | .int _ => False
  | .slice s => match s.indices n with
      | .ok (a, b, c) => (0 < c ∧ b < a) ∨ (c < 0 ∧ a < b)
      | .error _ => False

/-- The value a numpy-style assignment gives to the cell at position `(a, b, c)` of an
`n0 × n1 × nb` selection: a scalar goes everywhere, a 1-D array is a row (but one value per
band when a single pixel is addressed), a 2-D array is an image used for every band, a 3-D
array is used as is; axes of length one are repeated.  `none` when shapes do not match. -/
def broadcast (v : Indexer.Value α) (n0 n1 nb : Nat) : Option (Nat → Nat → Nat → α) :=
  let fit := fun d n => d = n ∨ d = 1
  let ix := fun (d a : Nat) => if d = 1 then 0 else a
  match v.arr.shape with
  | [] => some fun _ _ _ => v.arr.get []
  | [d] =>
    if v.isArray ∧ n0 = 1 ∧ n1 = 1 then
      if d = nb then some fun _ _ c => v.arr.get [c] else none
    else if fit d n1 then some fun _ b _ => v.arr.get [ix d b] else none
  | [d, e] => if fit d n0 ∧ fit e n1 then some fun a b _ => v.arr.get [ix d a, ix e b] else none
  | [d, e, f] => if fit d n0 ∧ fit e n1 ∧ fit f nb then
      some fun a b c => v.arr.get [ix d a, ix e b, ix f c] else none
  | _ => none

/-- The mask that applies to band `k`. -/
def maskAt : Indexer.Mask → Nat → Arr Bool
  | .two m, _ => m
  | .three _ m, k => m k

/-- The `True` cells of a mask, as a set. -/
def Masked (m : Arr Bool) (y x : Int) : Prop :=
  0 ≤ y ∧ y < m.ny ∧ 0 ≤ x ∧ x < m.nx ∧ m.get y.toNat x.toNat = true

/-- `ps` lists the `True` cells of `m` in row-major order. -/
def RowMajor (m : Arr Bool) (ps : List (Nat × Nat)) : Prop :=
  (∀ y x : Nat, (y, x) ∈ ps ↔ Masked m y x) ∧
  ps.Pairwise fun p q => p.1 < q.1 ∨ (p.1 = q.1 ∧ p.2 < q.2)

/-- Value meant for the `t`-th masked pixel of band `k`: a scalar (or a single value) goes
to all of them, a 1-D array supplies one value per masked pixel, a 2-D array one row per
masked pixel and one column per band. -/
def maskValue : Indexer.MValue α → Nat → Nat → Option α
  | .scalar v, _, _ => some v
  | .vec l, t, _ => if l.length = 1 then l[0]? else l[t]?
  | .mat _ rows, t, k => (if rows.length = 1 then rows[0]? else rows[t]?).bind (·[k]?)

/-- The value has the right shape for `cnt` masked pixels in each of `nb` bands. -/
def MaskFits (v : Indexer.MValue α) (nb cnt : Nat) : Prop :=
  match v with
  | .scalar _ => True
  | .vec l => l.length = cnt ∨ l.length = 1
  | .mat cols rows => nb ≤ cols ∧ (∀ r ∈ rows, r.length = cols) ∧
      (rows.length = cnt ∨ rows.length = 1)

/-- The mask has the shape of the grid. -/
def MaskShape (H W nb : Nat) (M : Indexer.Mask) : Prop :=
  (∀ k, k < nb → (maskAt M k).ny = H ∧ (maskAt M k).nx = W) ∧
  match M with
  | .two _ => True
  | .three n _ => n = nb

end Karta.Band.Spec
