import Verif.Model.ValLoops

/-! Definitions used in the statements of `Verif/Props/ValLoops.lean`. -/

namespace Verif.ValLoops
open Verif Sandwich

variable {σ B R : Type}

/-! ### Specification -/

/-- The statistics of the layers that run in a subnet, computed on the calibration data. -/
def World.fresh (w : World σ B R) (s : σ) (l : Nat) : List ℚ := if (w.mask s l).isSome then w.recorded s l else []

/-- The metrics of a subnet over the whole dataset, in evaluation mode and with given
statistics. -/
def World.quality (w : World σ B R) (s : σ) (stats : Nat → List ℚ) : Dict :=
  w.metrics (w.batches.flatMap (w.outputs false s stats))

/-- The active channels are the first ones. -/
def Leading (m : List Bool) : Prop := ∃ a b, m = List.replicate a true ++ List.replicate b false

/-- A world without surprises: every layer records one number for each active channel, the
loader yields no more than the samples of the dataset, and metrics have different names. -/
structure World.Regular (w : World σ B R) : Prop where
  count : ∀ s l m, w.mask s l = some m → (w.recorded s l).length = m.count true
  student : ∀ s r, (w.batches.flatMap (w.outputs false s r)).length ≤ w.size
  teacher : (w.batches.flatMap (w.teacher false)).length ≤ w.size
  metrics : ∀ l, ((w.metrics l).map (·.1)).Nodup

/-- In every subnet the active channels are the first ones. -/
def World.Leading (w : World σ B R) : Prop := ∀ s l m, w.mask s l = some m → ValLoops.Leading m

/-- Metrics under a common first part of the name. -/
def named (p : String) (m : Dict) : Dict := m.map fun x => (p.toList ++ '.' :: x.1, x.2)

/-- The hooks called for the batches. -/
def World.iters (w : World σ B R) : List Event := (List.range w.batches.length).flatMap fun i => [.beforeIter i, .afterIter i]

/-- The world of one layer with a mask, recorded numbers and nothing else. -/
def oneLayer (m : List Bool) (r : List ℚ) : World Unit Unit Unit where
  batches := []
  size := 0
  maxNet := ()
  minNet := ()
  sample _ := ()
  subnets := []
  mask _ _ := some m
  recorded _ _ := r
  outputs _ _ _ _ := []
  teacher _ _ := []
  metrics _ := []
  resources _ := []

/-- Two batches of two samples, one layer of two channels, the smallest subnet has one. -/
def tiny : World Nat Nat ℚ where
  batches := [1, 2]
  size := 4
  maxNet := 2
  minNet := 1
  sample i := 1 + i % 2
  subnets := [1, 2]
  mask s _ := some (if s = 1 then [true, false] else [true, true])
  recorded s _ := if s = 1 then [5] else [7, 9]
  outputs _ s r b := [(s : ℚ) + b, (r 0).sum]
  teacher _ b := [(b : ℚ), 0]
  metrics l := [("acc".toList, l.sum)]
  resources s := [("flops".toList, (s : ℚ))]

end Verif.ValLoops
