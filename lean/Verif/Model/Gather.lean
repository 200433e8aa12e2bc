import Verif.Model.LogitLoss
import Mathlib.Analysis.Calculus.FDeriv.Pi
import Mathlib.Analysis.Calculus.FDeriv.Comp
import Mathlib.Analysis.Calculus.Deriv.Prod
import Mathlib.Analysis.Calculus.Deriv.Comp
import Mathlib.Analysis.SpecialFunctions.Log.NegMulLog
import Mathlib.Analysis.Convex.Jensen

/-! Model of `GatherTensors` (`mmrazor/models/architectures/ops/gather_tensors.py`) and of the
loss which uses it (`InformationEntropyLoss` of `mmrazor/models/losses/dafl_loss.py`).

`W` processes hold one tensor each, all of one shape; tensors hold exact reals. A collective
operation is a function of what all processes pass to it. Not modelled: tensors of different
shapes, failing processes. -/

namespace Verif.Gather
open Verif

variable {W n N C : ℕ}

/-- `dist.all_gather`: every process gets the tensors of all processes in the order of the
ranks. -/
def allGather {T : Type} (x : Fin W → T) (_rank : Fin W) : Fin W → T := fun s => x s

/-- `dist.all_reduce` with the default operation: every process gets the sum over all
processes. The first argument of `m` is the process. -/
noncomputable def allReduce (m : Fin W → Fin W → Fin n → ℝ) (_rank : Fin W) : Fin W → Fin n → ℝ :=
  fun r i => ∑ s, m s r i

/-- `GatherTensors.forward`, gather_tensors.py lines 16-33. -/
def forward {T : Type} (x : Fin W → T) (rank : Fin W) : Fin W → T := allGather x rank

/-- `GatherTensors.backward`, gather_tensors.py lines 35-57: `g s r` is the gradient that
process `s` has for its copy of the tensor of process `r`. -/
noncomputable def backward (g : Fin W → Fin W → Fin n → ℝ) (rank : Fin W) : Fin n → ℝ :=
  allReduce g rank rank

/-- `torch.cat(…, dim=0)` of `W` tensors with `N` rows. -/
def cat (x : Fin W → Fin N → Fin C → ℝ) : Fin (W * N) → Fin C → ℝ :=
  fun k => x k.divNat k.modNat

/-- `InformationEntropyLoss` in process `rank`, dafl_loss.py lines 69-84. -/
noncomputable def entropyRank (weight : ℝ) (gather : Bool) (x : Fin W → Fin N → Fin C → ℝ)
    (rank : Fin W) : ℝ :=
  if gather = true ∧ 1 < W then LogitLoss.entropyForward weight (cat (forward x rank))
  else LogitLoss.entropyForward weight (x rank)

end Verif.Gather
