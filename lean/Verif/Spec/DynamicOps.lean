import Verif.Model.DynamicOps
import Mathlib.Tactic

/-! Definitions used in the statements of `Verif/Props/DynamicOps.lean`. -/

namespace Verif.DynamicOps
open Verif

variable {W X Y B : Type}

/-- The entries whose flag is set. -/
def active {α : Type} (m : List Bool) (xs : List α) : List α :=
  (m.zip xs).filterMap fun p => if p.1 then some p.2 else none

/-- The channels whose flag is not set replaced by zero. -/
def zeroOff [Zero X] (m : List Bool) (xs : List X) : List X :=
  List.zipWith (fun b x => if b then x else 0) m xs

/-- A layer whose parameters have the sizes PyTorch gives them. -/
structure Conv.WF (c : Conv W B) : Prop where
  pos : 0 < c.groups
  inDvd : c.groups ∣ c.inC
  outDvd : c.groups ∣ c.outC
  rows : c.weight.length = c.outC
  cols : ∀ r ∈ c.weight, r.length = c.inC / c.groups
  bias : ∀ bs, c.bias = some bs → bs.length = c.outC
  inSize : ∀ m, c.inMask = some m → m.length = c.inC
  outSize : ∀ m, c.outMask = some m → m.length = c.outC

/-- The mask in force on the input: all channels if none was registered. -/
def Conv.inM (c : Conv W B) : List Bool := c.inMask.getD (List.replicate c.inC true)

/-- The mask in force on the output. -/
def Conv.outM (c : Conv W B) : List Bool := c.outMask.getD (List.replicate c.outC true)

/-- The layer without masks. -/
def Conv.full (c : Conv W B) : Conv W B := { c with inMask := none, outMask := none }

/-- The kept rows and columns of every group. -/
def keep {α : Type} : List (List Bool) → List (List Bool) → List (List (List α)) → List (List (List α))
  | o :: os, i :: is, w :: ws => (select o w).map (select i) :: keep os is ws
  | _, _, _ => []

/-- Every group keeps the same number of channels. -/
def Even (groups size : Nat) (m : List Bool) : Prop :=
  ∀ g < groups, ∀ g' < groups, count ((m.drop (g * size)).take size) = count ((m.drop (g' * size)).take size)

/-- A depthwise layer on one-pixel channels: two channels, kernels 2 and 3. -/
def dw (i o : Option (List Bool)) : Conv Int Int := ⟨2, 2, 2, [[2], [3]], none, i, o⟩

/-- A linear layer whose parameters have the sizes PyTorch gives them. -/
structure Linear.WF (l : Linear W B) : Prop where
  rows : l.weight.length = l.outF
  cols : ∀ r ∈ l.weight, r.length = l.inF
  bias : ∀ bs, l.bias = some bs → bs.length = l.outF
  inSize : ∀ m, l.inMask = some m → m.length = l.inF
  outSize : ∀ m, l.outMask = some m → m.length = l.outF

/-- The mask in force on the input. -/
def Linear.inM (l : Linear W B) : List Bool := l.inMask.getD (List.replicate l.inF true)

/-- The mask in force on the output. -/
def Linear.outM (l : Linear W B) : List Bool := l.outMask.getD (List.replicate l.outF true)

/-- The layer without masks. -/
def Linear.full (l : Linear W B) : Linear W B := { l with inMask := none, outMask := none }

/-- A convolution followed by what happens to each output channel on its own
(normalisation in evaluation mode, activation). -/
structure Block (W B X : Type) where
  conv : Conv W B
  acts : List (X → X)

/-- The network with dynamic layers, on the active channels. -/
def runDynamic [AddCommMonoid X] (corr : W → X → X) (bc : B → X) : List (Block W B X) → List X → Except Err (List X)
  | [], x => .ok x
  | b :: bs, x => do
    let y ← b.conv.forward corr bc x
    runDynamic corr bc bs (List.zipWith (· ·) (active b.conv.outM b.acts) y)

/-- The full network, inactive channels being zeroed after every block. -/
def runMasked [AddCommMonoid X] (corr : W → X → X) (bc : B → X) : List (Block W B X) → List X → Except Err (List X)
  | [], x => .ok x
  | b :: bs, x => do
    let y ← b.conv.full.staticForward corr bc x
    runMasked corr bc bs (zeroOff b.conv.outM (List.zipWith (· ·) b.acts y))

/-- Every block is well formed and takes the channels the one before it gives (at first
`m`), of which some are active. -/
def Chain : List Bool → List (Block W B X) → Prop
  | _, [] => True
  | m, b :: bs => b.conv.WF ∧ b.conv.groups = 1 ∧ b.acts.length = b.conv.outC ∧ b.conv.inM = m ∧ true ∈ m ∧
      Chain b.conv.outM bs

/-- The mask on the output of the chain. -/
def lastMask : List Bool → List (Block W B X) → List Bool
  | m, [] => m
  | _, b :: bs => lastMask b.conv.outM bs

/-- A layer with two groups of two inputs and two outputs, keeping different positions in
the groups. -/
def g2 : Conv Int Int := ⟨4, 4, 2, [[1, 2], [3, 4], [5, 6], [7, 8]], some [10, 20, 30, 40],
  some [true, false, false, true], some [false, true, true, false]⟩

/-- An ordinary layer with both masks. -/
def g1 : Conv Int Int := ⟨3, 2, 1, [[1, 2, 3], [4, 5, 6]], some [10, 20], some [true, false, true], some [false, true]⟩

/-- A second one, taking its output. -/
def g1' : Conv Int Int := ⟨2, 1, 1, [[7, 8]], none, some [false, true], none⟩

end Verif.DynamicOps
