import Verif.Py
import Mathlib.Algebra.BigOperators.Group.List.Basic
import Mathlib.Data.Rat.Defs

/-! Model of the calibration sums: `update_hessian` of
`mmrazor/implementations/quantization/gptq/gptq.py` (lines 68-72 and 107-125) and of
`mmrazor/implementations/pruning/sparse_gpt/ops.py` (lines 46-50 and 85-103), which are the same
code, and `mmrazor/engine/runner/utils/calibrate_bn_mixin.py`. Exact rationals. -/

namespace Verif.Calibration
open Verif

/-- A vector of features. -/
abbrev Vec := Nat → ℚ

/-- What a layer receives: a matrix of rows, a batch of sequences of rows, or an array
of another number of dimensions. -/
inductive Input
  | rows (l : List Vec)
  | seqs (l : List (List Vec))
  | other

/-- `format_input` and the assertion, gptq.py lines 68-72, 110, 114. -/
def format : Input → Except Err (List (List Vec))
  | .rows l => .ok [l]
  | .seqs l => .ok l
  | .other => .error .assertion

/-- `2 X Xᵀ`, lines 116-118, at `(a, b)`. -/
def gram (l : List (List Vec)) (a b : Nat) : ℚ := 2 * (l.flatten.map fun x => x a * x b).sum

/-- The stored matrix (`none`: not a number) and the sample counter. -/
structure St where
  h : Option (Nat → Nat → ℚ)
  n : Nat

/-- `init_hessian`, lines 143-155, and `_gptq_mix_in_init`, line 51. -/
def St.init : St := ⟨some fun _ _ => 0, 0⟩

/-- Lines 123-125 for a reduced matrix `g` and a count `b`: zero divided by zero is not a
number. -/
def St.merge (s : St) (g : Nat → Nat → ℚ) (b : Nat) : St :=
  ⟨if s.n + b = 0 then none else s.h.map fun h i j => (h i j * s.n + g i j) / ((s.n : ℚ) + b), s.n + b⟩

/-- `update_hessian` in a single process. -/
def update (s : St) (x : Input) : Except Err St := do
  let l ← format x
  return s.merge (gram l) l.length

def run (s : St) : List Input → Except Err St
  | [] => .ok s
  | x :: xs => do run (← update s x) xs

/-- `update_hessian` on rank 0 of several processes with inputs `own :: others`, lines
120-125: the matrices are summed over the ranks, the own count is multiplied by the number of
ranks. -/
def updateDist (s : St) (own : List (List Vec)) (others : List (List (List Vec))) : St :=
  s.merge (fun a b => ((own :: others).map fun l => gram l a b).sum) (own.length * (others.length + 1))

/-- `GPTQConv2d.format_input` / `SparseGptConv2d.format_input` (sparse_gpt/ops.py lines 272-278)
for one sample of one channel and one spatial axis: the patches of `F.unfold`, which is called
without a dilation. -/
def unfold (x : Int → ℚ) (k stride pad count : Nat) (dilation : Nat := 1) : List Vec :=
  (List.range count).map fun p t => if t < k then x ((p * stride + t * dilation : Nat) - (pad : Int)) else 0

/-- The number of features of a patch, and the number of columns of the weight matrix. -/
def patchFeatures (cin kh kw : Nat) : Nat := cin * kh * kw
def weightColumns (cin groups kh kw : Nat) : Nat := cin / groups * kh * kw

/-! Batch norm calibration -/

/-- `AverageMeter`, lines 12-36. -/
structure Meter where
  sum : ℚ
  count : Nat
deriving DecidableEq, Repr

def Meter.init : Meter := ⟨0, 0⟩

/-- `update`, lines 34-35, one process. -/
def Meter.update (m : Meter) (v : ℚ) (b : Nat) : Meter := ⟨m.sum + v * b, m.count + b⟩

/-- Line 36. -/
def Meter.avg (m : Meter) : ℚ := m.sum / m.count

/-- `update` on a rank with value `v` and batch size `b` when the others have `others`, lines
24-35. -/
def Meter.updateDist (m : Meter) (v : ℚ) (b : Nat) (others : List (ℚ × Nat)) : Meter :=
  let total := b + (others.map (·.2)).sum
  m.update ((v + (others.map (·.1)).sum) / ((total : ℚ) / b)) total

/-- A batch for one channel: for each sample its pixels. -/
abbrev Batch := List (List ℚ)

/-- `real_input.mean((0, 2, 3))`, line 54. -/
def mean (l : List ℚ) : ℚ := l.sum / l.length

/-- `real_input.var((0, 2, 3), unbiased=True)`, line 55; not a number for fewer than two
pixels. -/
def var (l : List ℚ) : Option ℚ :=
  if l.length < 2 then none else some ((l.map fun x => (x - mean l) ^ 2).sum / ((l.length : ℚ) - 1))

/-- The hook over a sequence of batches, lines 48-58. -/
def calibrateMean (bs : List Batch) : Meter := bs.foldl (fun m b => m.update (mean b.flatten) b.length) .init

def calibrateVar (bs : List Batch) : Option Meter :=
  bs.foldl (fun m b => do return (← m).update (← var b.flatten) b.length) (some .init)

/-- A batch of the loader: a tensor, or a dictionary with a number of keys whose `inputs` has
a number of samples. -/
inductive Data
  | tensor (n : Nat)
  | dict (keys n : Nat)
deriving DecidableEq, Repr

/-- The length of `data[:r]`. -/
def sliceLen (n : Nat) (r : Int) : Nat := if 0 ≤ r then min n r.toNat else (n + r).toNat

/-- The loop, lines 77-99, in one process: the numbers of samples of the batches that are run;
slicing a dictionary is a `TypeError`. -/
def calibrate (remaining : Int) : List Data → Except Err (List Nat)
  | [] => .ok []
  | .tensor n :: ds => do
    let k := if remaining ≤ n then sliceLen n remaining else n
    if remaining - k ≤ 0 then return [k]
    return k :: (← calibrate (remaining - k) ds)
  | .dict keys n :: ds => do
    if remaining ≤ keys then throw .type
    if remaining - n ≤ 0 then return [n]
    return n :: (← calibrate (remaining - n) ds)

end Verif.Calibration
