import Verif.Model.DmcpChannel
import Verif.Lemmas.SeqChannel
import Mathlib.MeasureTheory.Integral.IntervalIntegral.Basic
import Mathlib.Tactic.Ring
import Mathlib.Tactic.Linarith
import Mathlib.Tactic.FieldSimp
import Mathlib.Tactic.Positivity

/-! Definitions used in the statements of `Verif/Props/DmcpChannel.lean`. -/

namespace Verif.DmcpChannel
open Verif SeqChannel

/-- The mean of a function of `n` independent draws, uniform between 0 and 1. -/
noncomputable def mean : Nat → (List ℝ → ℝ) → ℝ
  | 0, f => f []
  | n + 1, f => ∫ u in (0 : ℝ)..1, mean n fun us => f (u :: us)

/-- The groups of a unit with `n` channels and its architecture parameters. -/
structure Fits (A : Attr) (arch : List ℝ) (n : Nat) : Prop where
  pos : 0 < A.minCh
  sum : A.minCh + A.g * A.groups = n
  len : arch.length = A.groups

/-- The sampled number of channels. -/
noncomputable def chosen (A : Attr) (arch : List ℝ) (mode : Mode) (us : List ℝ) : ℝ :=
  match prune A arch mode 0 us with
  | .ok c => c.value
  | .error _ => 0

/-- The FLOPs of a convolution without bias from a unit to another one, both sampled in the same
mode. -/
noncomputable def flops (A : Attr) (a : List ℝ) (n : Nat) (B : Attr) (b : List ℝ) (k : ℝ) (mode : Mode) (us vs : List ℝ) : ℝ :=
  match prune A a mode 0 us, prune B b mode 0 vs with
  | .ok ca, .ok cb => match setChoice n ca with
    | .ok mask => convFlops k mask cb
    | .error _ => 0
  | _, _ => 0

end Verif.DmcpChannel
