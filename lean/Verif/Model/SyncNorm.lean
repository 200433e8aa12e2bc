import Verif.Model.DynamicNorm

/-! Model of `DynamicSyncBatchNorm.forward`,
`mmrazor/models/architectures/dynamic_ops/bricks/dynamic_norm.py` lines 263-382: several processes, each
with its copy of the layer and its part of the batch. A part is given by the values of each channel.
`nrm` normalises one value with a mean, a variance and optionally a weight and a bias. -/

namespace Verif.SyncNorm
open Verif DynamicOps DynamicNorm

/-- Normalising one value. -/
abbrev Nrm := ℚ → ℚ → Option Pair → ℚ → ℚ

/-- The mean. -/
def mean (x : List ℚ) : ℚ := x.sum / x.length

/-- The sum of the squared distances to the mean. -/
def sq (x : List ℚ) : ℚ := (x.map fun a => (a - mean x) * (a - mean x)).sum

/-- `F.batch_norm` on the values of one channel. -/
def listOps (nrm : Nrm) : Ops (List ℚ) :=
  ⟨mean, fun x => sq x / x.length, fun x => sq x / (x.length - 1), fun m v p x => x.map (nrm m v p)⟩

/-- What is gathered from the processes is put together one after the other: number, mean and sum of
squared distances (PyTorch's `batch_norm_gather_stats_with_counts`). -/
def combine : List (List ℚ) → ℚ × ℚ × ℚ → ℚ × ℚ × ℚ
  | [], s => s
  | x :: xs, (n, avg, v) =>
    let c : ℚ := x.length
    let m := mean x
    let f := 1 / (n + c)
    combine xs (n + c, n * f * avg + c * f * m, v + sq x + (avg - m) * (avg - m) * n * c * f)

/-- Processes without data are left out first (PyTorch's `SyncBatchNorm.forward`). -/
def gathered (parts : List (List ℚ)) : ℚ × ℚ × ℚ := combine (parts.filter fun x => !x.isEmpty) (0, 0, 0)

/-- `sync_batch_norm` on one channel: the parts of all processes and the own part. -/
def syncOps (nrm : Nrm) : Ops (List (List ℚ) × List ℚ) :=
  ⟨fun x => (gathered x.1).2.1, fun x => (gathered x.1).2.2 / (gathered x.1).1,
    fun x => (gathered x.1).2.2 / ((gathered x.1).1 - 1), fun m v p x => (x.1, x.2.map (nrm m v p))⟩

/-- `DynamicSyncBatchNorm.forward` of one process, lines 287-382: `cols` are the parts of all
processes, by channel. Without synchronisation it is the forward of the other batch norms. -/
def forward (nrm : Nrm) (cuda : Bool) (b : BN) (world : Nat) (cols : List (List (List ℚ))) (x : List (List ℚ)) :
    BN × Except Err (List (List ℚ)) :=
  if !cuda then (b, .error .value)
  else if b.training ∧ 1 < world then
    let r := b.forward (syncOps nrm) (cols.zip x)
    (r.1, r.2.map fun y => y.map (·.2))
  else b.forward (listOps nrm) x

/-- The parts by channel. -/
def columns (channels : Nat) (xs : List (List (List ℚ))) : List (List (List ℚ)) :=
  (List.range channels).map fun c => xs.map fun x => x.getD c []

/-- All processes together. All parts have `channels` channels. -/
def step (nrm : Nrm) (cuda : Bool) (channels : Nat) (bs : List BN) (xs : List (List (List ℚ))) :
    List (BN × Except Err (List (List ℚ))) :=
  List.zipWith (fun b x => forward nrm cuda b bs.length (columns channels xs) x) bs xs

end Verif.SyncNorm
