import Verif.Model.GroupFisher
import Verif.Model.Thresholds

/-! Training with `GroupFisherAlgorithm` and `ResourceInfoHook` together:
`mmrazor/implementations/pruning/group_fisher/algorithm.py` lines 63-77 and `hook.py` lines 91-198.
The resource is a function of the numbers of active channels of the units (what the counters of the estimator look at,
see `Verif/Model/CountedNet.lean`); numbers are exact. -/

namespace Verif.FisherRun
open Verif GroupFisher Thresholds

/-- The numbers of active channels, on which `_evaluate`, hook.py lines 172-187, depends. -/
def widths (us : List FUnit) : List Nat := us.map FUnit.active

/-- A checkpoint written by `_save_checkpoint`, hook.py lines 189-198: when, for which threshold, and the units it holds. -/
structure Save where
  it : Nat
  thr : ℚ
  units : List FUnit
deriving DecidableEq

/-- The result of training: the checkpoints, the iteration in which `exit()` was called, the thresholds left and the units. -/
structure Done where
  saves : List Save
  ended : Option Nat
  left : List ℚ
  units : List FUnit
deriving DecidableEq

/-- `after_train_iter`, hook.py lines 145-160, with the division by the original resource, line 154. -/
def check (cost : List Nat → ℚ) (c : Cfg) (orig : ℚ) (it : Nat) (us : List FUnit) (left : List ℚ) : Except Err Out :=
  if c.interval = 0 then .error .zeroDivision
  else if it % c.interval = 0 ∧ left ≠ [] ∧ orig = 0 then .error .zeroDivision
  else after c it (cost (widths us) / orig) left

/-- The checkpoint of a check, if there is one. -/
def record (it : Nat) (us : List FUnit) (o : Out) : List Save :=
  match o.saved with
  | some t => [⟨it, t, us⟩]
  | none => []

/-- Iterations `it`, `it + 1`, …: `_train_step`, algorithm.py lines 63-77, then the hook. -/
def loop (cost : List Nat → ℚ) (c : Cfg) (interval : Nat) (orig : ℚ) (it : Nat) (left : List ℚ) :
    List (List (List (Option ℚ))) → List FUnit → Except Err Done
  | [], us => .ok ⟨[], none, left, us⟩
  | b :: bs, us => do
    let us1 ← trainStep interval it b us
    let o ← check cost c orig it us1 left
    if o.ended then return ⟨record it us1 o, some it, o.left, us1⟩
    else
      let d ← loop cost c interval orig (it + 1) o.left bs us1
      return { d with saves := record it us1 o ++ d.saves }

/-- Training from the beginning: `before_run`, hook.py lines 134-140, measures the original network. -/
def train (cost : List Nat → ℚ) (c : Cfg) (interval : Nat) (thr : List ℚ) (bs : List (List (List (Option ℚ)))) (us : List FUnit) :
    Except Err Done :=
  loop cost c interval (cost (widths us)) 0 (initial thr) bs us

end Verif.FisherRun
