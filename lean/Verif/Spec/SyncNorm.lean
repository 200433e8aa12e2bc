import Verif.Model.SyncNorm
import Verif.Spec.DynamicNorm

/-! Definitions used in the statements of `Verif/Props/SyncNorm.lean`. -/

namespace Verif.SyncNorm
open Verif DynamicOps DynamicNorm

/-- The whole batch, by channel. -/
def joined (channels : Nat) (xs : List (List (List ℚ))) : List (List ℚ) :=
  (List.range channels).map fun c => (xs.map fun x => x.getD c []).flatten

/-- One training step of all processes with the mask `m`: the states afterwards. -/
def stepMasked (nrm : Nrm) (channels : Nat) (m : List Bool) (bs : List BN) (xs : List (List (List ℚ))) : List BN :=
  (step nrm true channels (bs.map fun b => b.setMask m) xs).map (·.1)

/-- Training of all processes with changing masks and data. -/
def trainAll (nrm : Nrm) : List BN → List (Nat × List Bool × List (List (List ℚ))) → List BN
  | bs, [] => bs
  | bs, (n, m, xs) :: r => trainAll nrm (stepMasked nrm n m bs xs) r

/-- Training of one process with the whole batches. -/
def trainOne (nrm : Nrm) : BN → List (Nat × List Bool × List (List (List ℚ))) → BN
  | b, [] => b
  | b, (n, m, xs) :: r => trainOne nrm ((b.setMask m).forward (listOps nrm) (joined n xs)).1 r

end Verif.SyncNorm
