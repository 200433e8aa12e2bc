import Verif.Model.CountedNet
import Verif.Spec.PrunedNet
import Verif.Spec.Estimator

/-! Definitions used in the statements of `Verif/Props/CountedNet.lean`. -/

namespace Verif.CountedNet
open Verif Verif.DynamicOps Verif.ChannelNodes Verif.PrunedNet Verif.Estimator

variable {W B X : Type}

/-- The numbers held by an exported convolution: all entries of its weight, each a kernel of `k` numbers, and its bias. -/
def held (k : Nat) (s : Conv W B) : Nat := (s.weight.map List.length).sum * k + (s.bias.map List.length).getD 0

/-- The numbers held by the exported module. -/
def size (kernel : Nat → Option (List Nat)) (mods : Nat → Module W B X) (tbl : List (Nat × List Bool × List Bool)) (m : Nat) : Nat :=
  match exportModule mods tbl m, kernel m with
  | .ok (.conv s), some k => held k.prod s
  | _, _ => 0

/-- The entries of the weight of the exported module. -/
def entries (mods : Nat → Module W B X) (tbl : List (Nat × List Bool × List Bool)) (m : Nat) : Nat :=
  match exportModule mods tbl m with
  | .ok (.conv s) => (s.weight.map List.length).sum
  | _ => 0

/-- The numbers held by an exported linear layer. -/
def exportedSize (mods : Nat → Module W B X) (tbl : List (Nat × List Bool × List Bool)) (m : Nat) : Nat :=
  match exportModule mods tbl m with
  | .ok (.conv s) => held 1 s
  | _ => 0

/-- The numbers held by a linear layer before pruning. -/
def wholeSize (mods : Nat → Module W B X) (m : Nat) : Nat :=
  match mods m with
  | .conv c => held 1 c
  | .chan _ => 0

/-- The positions of a channel of the output of a call. -/
def positions (c : Call) : Nat := (c.out.dims.drop 1).prod

/-- A depthwise layer. -/
def Depthwise (c : Conv W B) : Prop := c.groups = c.inC ∧ c.inC = c.outC

/-- Modules stand at the nodes that run them. -/
def Runs (n : Node) : Prop := (∃ out, n.kind = .mix out) ∨ (∃ g out, n.kind = .group g out) ∨ n.kind = .passUnion

end Verif.CountedNet
