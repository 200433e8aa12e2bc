import Verif.Spec.ChannelNodes

/-! Graphs of ordinary layers. -/

namespace Verif.ChannelNodes
open Verif

/-- Ordinary nodes: convolutions and linear layers, normalisations, activations, additions, inputs and outputs. -/
def PlainKind : Kind → Prop
  | .input n => 0 < n ∧ n ≤ 2 ^ 32
  | .mix n => 0 < n ∧ n ≤ 2 ^ 32
  | .passUnion => True
  | .pass => True
  | .bind => True
  | .stop => True
  | _ => False

/-- An ordinary node of a graph; only inputs have no predecessors. -/
def PlainNode (n : Node) : Prop := PlainKind n.kind ∧ (n.prev = [] → ∃ k, n.kind = .input k)

/-- A residual network whose middle convolution is used twice. -/
def sharedNet : List Node :=
  [⟨"x", .input 3, [], none⟩, ⟨"conv1", .mix 4, [0], some 0⟩, ⟨"bn", .passUnion, [1], some 1⟩, ⟨"relu", .pass, [2], none⟩,
    ⟨"conv2", .mix 4, [3], some 2⟩, ⟨"conv2again", .mix 4, [4], some 2⟩, ⟨"add", .bind, [3, 5], none⟩, ⟨"fc", .mix 10, [6], some 3⟩,
    ⟨"out", .stop, [7], none⟩]

end Verif.ChannelNodes
