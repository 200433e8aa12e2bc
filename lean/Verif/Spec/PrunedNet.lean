import Verif.Model.PrunedNet
import Verif.Spec.DynamicOps
import Verif.Spec.ChannelPlain

/-! Definitions used in the statements of `Verif/Props/PrunedNet.lean`. -/

namespace Verif.PrunedNet
open Verif Verif.DynamicOps Verif.ChannelNodes

variable {W B X : Type}

/-- The network as it was before pruning. -/
def fullLayer [AddCommMonoid X] (corr : Nat → W → X → X) (bc : Nat → B → X) (mods : Nat → Module W B X) (m : Nat) (v : List X) :
    Except Err (List X) := (mods m).forward (corr m) (bc m) v

/-- The whole network with the inactive channels replaced by zeros in front of every convolution. -/
def zeroedLayer [AddCommMonoid X] (corr : Nat → W → X → X) (bc : Nat → B → X) (mods : Nat → Module W B X)
    (tbl : List (Nat × List Bool × List Bool)) (m : Nat) (v : List X) : Except Err (List X) :=
  match mods m with
  | .conv c => c.staticForward (corr m) (bc m) (zeroOff (masksOf tbl m).1 v)
  | .chan fs => (Module.chan fs : Module W B X).forward (corr m) (bc m) v

/-- An ordinary convolution before any mask is registered. -/
def Plain (c : Conv W B) : Prop := c.WF ∧ c.inMask = none ∧ c.outMask = none

/-- The modules are the ones the graph was read off: ordinary convolutions at `mix` nodes, grouped ones at `group` nodes, depthwise ones
or norm layers at `passUnion` nodes, all with the numbers of channels of the tensors; a channel is always cut into the same
number of entries. Group norms are left out: their statistics are taken over the channels that are left. -/
def FitsNode (o : Ops X) (mods : Nat → Module W B X) (n : Node) (r : Rec) : Prop :=
  match n.kind with
  | .input k => (o.input n.name).length = k
  | .mix out => ∃ m c, n.module = some m ∧ mods m = .conv c ∧ Plain c ∧ c.groups = 1 ∧ c.inC = r.inp.length ∧ c.outC = out
  | .group g out => ∃ m c, n.module = some m ∧ mods m = .conv c ∧ Plain c ∧ c.groups = g ∧ g ≠ 1 ∧
      ¬ (c.groups = c.inC ∧ c.inC = c.outC) ∧ c.inC = r.inp.length ∧ c.outC = out
  | .passUnion => n.module = none ∨ ∃ m, n.module = some m ∧
      ((∃ fs, mods m = .chan fs ∧ fs.length = r.inp.length) ∨
       ∃ c, mods m = .conv c ∧ Plain c ∧ c.groups = c.inC ∧ c.inC = c.outC ∧ c.groups ≠ 1 ∧ c.inC = r.inp.length)
  | .expand k => ∀ x, (o.split n.name x).length = k
  | .groupNorm _ _ => False
  | _ => True

/-- All nodes fit; only inputs have no predecessors, and nothing comes after an output. -/
structure Fits (o : Ops X) (mods : Nat → Module W B X) (nodes : List Node) (recs : List Rec) : Prop where
  node : ∀ q ∈ nodes.zip recs, FitsNode o mods q.1 q.2
  start : ∀ n ∈ nodes, n.prev = [] → ∃ k, n.kind = .input k
  stop : ∀ n ∈ nodes, ∀ i ∈ n.prev, ∀ p, nodes[i]? = some p → p.kind ≠ .stop

/-- The channels of the network's inputs are kept, and in front of every module some channel is. -/
def Kept (φ : Elem → Bool) (nodes : List Node) (recs : List Rec) : Prop :=
  ∀ q ∈ nodes.zip recs,
    (∀ k, q.1.kind = .input k → ∀ x ∈ q.2.ret, φ x = true) ∧ (q.1.module ≠ none → ∃ x ∈ q.2.inp, φ x = true)

/-- The network with the given modules. -/
def Ops.with (o : Ops X) (f : Nat → List X → Except Err (List X)) : Ops X := { o with layer := f }

/-- The masks keep all channels of the inputs, and some channel in front of every module. -/
def KeptMasks (read : Tensor → Except Err (List Bool)) (nodes : List Node) (recs : List Rec) : Prop :=
  ∀ q ∈ nodes.zip recs,
    (∀ k, q.1.kind = .input k → ∀ a, read q.2.out = .ok a → false ∉ a) ∧ (q.1.module ≠ none → ∀ a, read q.2.inp = .ok a → true ∈ a)

/-- The pruned network runs, with the masks `read` from its units; at every node it has the active channels of the whole network, with
zeros in front of the convolutions in place of the channels that were dropped; and the exported network does the same. The channels
`φ` are the ones the masks keep. -/
def Faithful [AddCommMonoid X] (corr : Nat → W → X → X) (bc : Nat → B → X) (o : Ops X) (mods : Nat → Module W B X)
    (read : Tensor → Except Err (List Bool)) (nodes : List Node) (recs : List Rec) : Prop :=
  ∃ (φ : Elem → Bool) (tbl : List (Nat × List Bool × List Bool)) (ws vs : List (List X)),
    (∀ r ∈ recs, read r.inp = .ok (r.inp.map φ) ∧ read r.out = .ok (r.out.map φ)) ∧ register read (nodes.zip recs) = .ok tbl ∧
      evalAll (o.with (zeroedLayer corr bc mods tbl)) nodes [] = .ok ws ∧ evalAll (o.with (dynLayer corr bc mods tbl)) nodes [] = .ok vs ∧
      evalAll (o.with (staticLayer corr bc mods tbl)) nodes [] = .ok vs ∧
      ∀ (i : Nat) n, nodes[i]? = some n → n.kind ≠ .stop → ∃ r w, recs[i]? = some r ∧ ws[i]? = some w ∧ w.length = r.ret.length ∧
        vs[i]? = some (active (r.ret.map φ) w)

end Verif.PrunedNet
