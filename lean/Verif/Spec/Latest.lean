import Verif.Model.Latest
import Mathlib.Tactic.Linarith
import Mathlib.Tactic.NormNum
import Mathlib.Tactic.Positivity
import Mathlib.Tactic.FieldSimp
import Mathlib.Algebra.Order.BigOperators.Group.List

/-! Definitions used in the statements of `Verif/Props/Latest.lean`. -/

/-! C51: the latest checkpoint and the frames per second. -/
namespace Verif.Latest

/-- The name of the checkpoint of step `n`: `<pre>_<n>.<suffix>`. -/
def stepName (suffix pre : Name) (n : Nat) : Name :=
  pre ++ '_' :: (Nat.toDigits 10 n ++ '.' :: suffix)

/-- The checkpoint with the largest step number: of the files that stand for a
step, `f` stands for the largest. -/
def IsLatest (suffix : Name) (d : Dir) (f : Name) : Prop :=
  f ∈ d.names ∧ ∃ pre n, f = stepName suffix pre n ∧
    ∀ g ∈ d.names, ∀ pre' n', g = stepName suffix pre' n' → n' ≤ n

/-- Total time and number of the rounds that are timed. -/
def timedRounds (maxIter warmup : Int) : List Nat :=
  (List.range' 1 (maxIter.toNat - 1)).filter fun i => decide ((i : Int) ≥ warmup)

/-- A name with a number below zero: `<pre>_-<n>.<suffix>`. -/
def negativeName (suffix pre : Name) (n : Nat) : Name :=
  pre ++ '_' :: '-' :: (Nat.toDigits 10 n ++ '.' :: suffix)

/-- Milliseconds per frame of a repetition. -/
def perFrame (maxIter warmup : Int) (elapsed : Nat → ℚ) : ℚ :=
  1000 * ((timedRounds maxIter warmup).map elapsed).sum / (timedRounds maxIter warmup).length

end Verif.Latest
