import Verif.Model.AutoSlim
import Mathlib.Tactic.Linarith
import Mathlib.Data.List.GetD
import Mathlib.Algebra.BigOperators.Group.List.Basic

/-! Definitions used in the statements of `Verif/Props/AutoSlim.lean`. -/

namespace Verif.AutoSlim
open Verif

/-! ### Specification -/

/-- `b` is `a` with one bin less in one unit that had at least two. -/
def OneLess (a b : List Nat) : Prop :=
  ∃ (i : Nat) (h : i < a.length), 2 ≤ a[i] ∧ b = a.set i (a[i] - 1)

/-- `b` scores best among the subnets with one bin less than `a`. -/
def GreedyStep (score : List Nat → ℚ) (a b : List Nat) : Prop :=
  OneLess a b ∧ ∀ c, OneLess a c → score c ≤ score b

/-- From `a`, greedy steps are taken as long as the FLOPs exceed the target; `b` is
where they stop. -/
inductive Shrinks (flopsOf score : List Nat → ℚ) (target : ℚ) : List Nat → List Nat → Prop
  | done (a : List Nat) : flopsOf a ≤ target → Shrinks flopsOf score target a a
  | step (a b c : List Nat) : target < flopsOf a → GreedyStep score a b →
      Shrinks flopsOf score target b c → Shrinks flopsOf score target a c

/-- One record per target, each obtained from the previous one. -/
def Records (flopsOf score : List Nat → ℚ) : List ℚ → List Nat → List (List Nat × ℚ) → Prop
  | [], _, [] => True
  | t :: ts, cur, (s, f) :: rest =>
    Shrinks flopsOf score t cur s ∧ f = flopsOf s ∧ Records flopsOf score ts s rest
  | _, _, _ => False

/-- The targets from the largest to the smallest. -/
def descending (targets : List ℚ) : List ℚ := sortBy (fun a b => decide (a ≥ b)) targets

/-- A toy network: FLOPs is the total number of bins, the first unit is the more
important one. -/
def exFlops (s : List Nat) : ℚ := s.sum
def exScore (s : List Nat) : ℚ := 10 * s.getD 0 0 + s.getD 1 0

/-- Every target is still above its goal when it comes up, in the uninterrupted run
from `st`. -/
def NeverSkips (flopsOf score : List Nat → ℚ) : List ℚ → State → Prop
  | [], _ => True
  | t :: ts, st => t < st.flops ∧ ∀ st' ck ck',
      shrink flopsOf score t st.current.sum st ck = .ok (st', ck') → NeverSkips flopsOf score ts (record st')

end Verif.AutoSlim
