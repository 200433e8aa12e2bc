import Verif.Py
import Verif.Sort
import Mathlib.Algebra.BigOperators.Group.List.Basic
import Mathlib.Data.Rat.Defs

/-! Model of `SparseGptMixIn.prune` (`mmrazor/implementations/pruning/sparse_gpt/ops.py`, lines
137-227) and of `is_weight_sparse_24` (`sparse24_utils.py`, lines 5-10). Exact rationals; the
upper Cholesky factor of the inverse of the damped second moment matrix is a parameter. The
loss is not modelled (so neither is the check for a loss that is not a number). -/

namespace Verif.SparseGpt
open Verif

abbrev Mat := Nat → Nat → ℚ
abbrev Mask := Nat → Nat → Bool

/-- The arguments of `prune`, the shape, the dead columns (line 148) and the factor `Hinv`. -/
structure Cfg where
  rows : Nat
  cols : Nat
  sparsity : ℚ
  n : Nat
  m : Nat
  blocksize : Nat
  hinv : Mat
  dead : Nat → Bool

/-- Saliency of an entry of a block that starts at column `i1`, lines 178 and 190-191. -/
def score (c : Cfg) (i1 : Nat) (w1 : Mat) (r j : Nat) : ℚ := w1 r j ^ 2 / c.hinv (i1 + j) (i1 + j) ^ 2

/-- `torch.topk(l, n, largest=False)[1]`: the places of the `n` smallest entries (which of
equal entries come first is not specified by the library; here the leftmost). -/
def smallest (n : Nat) (l : List ℚ) : List Nat :=
  ((sortBy (fun a b => decide (a.1 ≤ b.1)) l.zipIdx).take n).map (·.2)

/-- All scores of a block. -/
def scores (c : Cfg) (i1 count : Nat) (w1 : Mat) : List ℚ :=
  (List.range c.rows).flatMap fun r => (List.range count).map fun j => score c i1 w1 r j

/-- Python indexing. -/
def pyGet (l : List ℚ) (k : Int) : Except Err ℚ :=
  match l[(if 0 ≤ k then k else l.length + k).toNat]? with
  | some x => if 0 ≤ (if 0 ≤ k then k else l.length + k) then .ok x else .error .index
  | none => .error .index

/-- The threshold of a block, lines 178-180. -/
def threshold (c : Cfg) (i1 count : Nat) (w1 : Mat) : Except Err ℚ :=
  let l := scores c i1 count w1
  pyGet (sortBy (fun a b => decide (a ≤ b)) l) (pyInt ((l.length : ℚ) * c.sparsity))

/-- Lines 174-183: the mask at the start of a block. -/
def startMask (c : Cfg) (i1 count : Nat) (w1 : Mat) : Except Err Mask :=
  if c.n = 0 then (threshold c i1 count w1).map fun t r j => decide (score c i1 w1 r j ≤ t)
  else .ok fun _ _ => false

/-- Lines 189-195. -/
def groupMask (c : Cfg) (i1 count i : Nat) (w1 : Mat) (mask : Mask) : Except Err Mask :=
  if c.n = 0 then .ok mask
  else if c.m = 0 then .error .zeroDivision
  else if i % c.m ≠ 0 then .ok mask
  else if min c.m (count - i) < c.n then .error .runtime
  else .ok fun r j => mask r j ||
    (decide (i ≤ j) && (smallest c.n ((List.range (min c.m (count - i))).map fun t => score c i1 w1 r (i + t))).contains (j - i))

/-- The tensors of a block. -/
structure Blk where
  w1 : Mat
  mask : Mask
  q1 : Mat
  err1 : Mat

/-- One column, lines 186-207. -/
def colStep (c : Cfg) (i1 count i : Nat) (b : Blk) : Except Err Blk := do
  let mask ← groupMask c i1 count i b.w1 b.mask
  let q := fun r => if mask r i then 0 else b.w1 r i
  let e := fun r => (b.w1 r i - q r) / c.hinv (i1 + i) (i1 + i)
  return ⟨fun r j => if i ≤ j then b.w1 r j - e r * c.hinv (i1 + i) (i1 + j) else b.w1 r j, mask,
    fun r j => if j = i then q r else b.q1 r j, fun r j => if j = i then e r else b.err1 r j⟩

/-- The block after its first `k` columns, lines 168-207. -/
def cols (c : Cfg) (i1 count : Nat) (w : Mat) : Nat → Except Err Blk
  | 0 => do return ⟨fun r j => w r (i1 + j), ← startMask c i1 count fun r j => w r (i1 + j), fun _ _ => 0, fun _ _ => 0⟩
  | k + 1 => do colStep c i1 count k (← cols c i1 count w k)

/-- The weights, the positions selected so far, and the error that stopped the loop. -/
structure St where
  w : Mat
  mask : Mask
  err : Option Err

/-- One block, lines 164-212. For single precision weights the updates happen in the layer's own
weights, so a block that fails leaves the earlier changes in place. -/
def blockStep (c : Cfg) (b : Nat) (s : St) : St :=
  let i1 := b * c.blocksize
  let i2 := min (i1 + c.blocksize) c.cols
  match s.err, cols c i1 (i2 - i1) s.w (i2 - i1) with
  | some e, _ => { s with err := some e }
  | none, .error e => { s with err := some e }
  | none, .ok k =>
    ⟨fun r j => if j < i1 then s.w r j else if j < i2 then k.q1 r (j - i1)
        else s.w r j - ((List.range (i2 - i1)).map fun t => k.err1 r t * c.hinv (i1 + t) j).sum,
     fun r j => if i1 ≤ j ∧ j < i2 then k.mask r (j - i1) else s.mask r j, none⟩

/-- The first `k` blocks, after zeroing the dead columns (line 150). -/
def blocks (c : Cfg) (w : Mat) : Nat → St
  | 0 => ⟨fun r j => if c.dead j then 0 else w r j, fun _ _ => false, none⟩
  | k + 1 => blockStep c k (blocks c w k)

/-- `is_weight_sparse_24`: the entries row after row, in fours, each with two zeros or more. -/
def sparse24 (c : Cfg) (w : Mat) : Except Err Bool :=
  if c.rows * c.cols % 4 ≠ 0 then .error .runtime
  else .ok ((List.range (c.rows * c.cols / 4)).all fun g =>
    decide (2 ≤ (List.range 4).countP fun t => decide (w ((4 * g + t) / c.cols) ((4 * g + t) % c.cols) = 0)))

/-- `prune`, lines 138-227, for single precision weights. -/
def prune (c : Cfg) (w : Mat) : St :=
  if c.blocksize = 0 then { blocks c w 0 with err := some .value }
  else
    let s := blocks c w ((c.cols + c.blocksize - 1) / c.blocksize)
    match s.err with
    | some _ => s
    | none =>
      if c.n = 2 ∧ c.m = 4 then
        match sparse24 c s.w with
        | .error e => { s with err := some e }
        | .ok false => { s with err := some .assertion }
        | .ok true => s
      else s

end Verif.SparseGpt
