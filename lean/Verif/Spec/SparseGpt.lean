import Verif.Model.SparseGpt
import Mathlib.Tactic

/-! Definitions used in the statements of `Verif/Props/SparseGpt.lean`. -/

namespace Verif.SparseGpt
open Verif

/-- Number of selected entries in the `m` columns from `i` on. -/
def selected (mask : Mask) (r i m : Nat) : Nat := (List.range m).countP fun t => mask r (i + t)

/-- The identity as factor, no dead columns, one row. -/
def simple (cols n m blocksize : Nat) (sparsity : ℚ) : Cfg :=
  ⟨1, cols, sparsity, n, m, blocksize, fun i j => if i = j then 1 else 0, fun _ => false⟩

/-- The weights 1, 2, 3, … -/
def ramp : Mat := fun _ j => j + 1

/-- Number of selected entries of a block. -/
def blockSelected (c : Cfg) (mask : Mask) (count : Nat) : Nat :=
  ((List.range c.rows).map fun r => (List.range count).countP fun j => mask r j).sum

/-- Removal of the selected weights column by column: each selected weight of column `k` is
removed and the later columns of its row are corrected by `w / U[k, k] * U[k, ·]`. These are the
weights before column `k` is treated. -/
def obs (u w : Mat) (mask : Mask) : Nat → Mat
  | 0 => w
  | k + 1 => fun r j => obs u w mask k r j - (if mask r k then obs u w mask k r k / u k k else 0) * u k j

/-- The saliency of a weight. -/
def saliency (u w : Mat) (r j : Nat) : ℚ := w r j ^ 2 / u j j ^ 2

/-- The weights with the columns of dead inputs set to zero. -/
def alive (c : Cfg) (w : Mat) : Mat := fun r j => if c.dead j = true then 0 else w r j

/-- A factor with entries beside the diagonal, and a dead column. -/
def coupled (blocksize : Nat) : Cfg :=
  ⟨1, 4, 0, 1, 2, blocksize, fun i j => if i = j then 2 else if i < j then 1 else 0, fun j => j == 3⟩

end Verif.SparseGpt
