import Verif.Model.Compressor
import Verif.Spec.Calibration
import Mathlib.Tactic

/-! Definitions used in the statements of `Verif/Props/Compressor.lean`. -/

namespace Verif.Compressor
open Verif

/-- The class a layer is to be replaced by, if it is to be replaced. -/
def target : Cfg → Kind → Option Kind
  | .gptq true _ _ _ _ _ _, .conv => some .gptqConv
  | .gptq _ true true _ b _ _, .linear _ _ => some (.tritonLinear (b.getD 0))
  | .gptq _ true false _ _ _ _, .linear _ _ => some .gptqLinear
  | .sparse true _, .conv => some .sparseConv
  | .sparse _ true, .linear i o => if i ≤ o then some .sparseLinear else none
  | _, _ => none

/-- The paths that are not to be touched. -/
def skippedPaths : Cfg → List (List String)
  | .gptq _ _ _ sk _ _ _ => sk
  | .sparse _ _ => []

/-- The path under which an object is met first. -/
def Net.firstPath (m : Net) (i : Nat) : List String :=
  ((m.slots.find? fun s => s.obj.id == i).map fun s => s.path).getD []

/-- What every model satisfies: an identity belongs to one object, an attribute holds one object,
the root is not below itself. -/
structure Net.Sound (m : Net) : Prop where
  object : ∀ s ∈ m.slots, ∀ t ∈ m.slots, s.obj.id = t.obj.id → s.obj = t.obj
  attr : ∀ s ∈ m.slots, ∀ t ∈ m.slots, s.owner = t.owner → s.name = t.name → s.obj = t.obj
  root : ∀ s ∈ m.slots, s.obj.id ≠ m.root.id

/-- Every convolution and linear layer is held by one attribute of one object (which may be
reached over several paths). -/
def Net.Once (m : Net) : Prop :=
  ∀ s ∈ m.slots, ∀ t ∈ m.slots, s.obj.kind ≠ .other → s.obj.id = t.obj.id → s.owner = t.owner ∧ s.name = t.name

/-- A network with a convolution and a block that is used twice, with a linear layer in it. -/
def shared : Net := ⟨⟨0, .other, 0⟩,
  [⟨["conv"], 0, "conv", ⟨1, .conv, 10⟩⟩, ⟨["p"], 0, "p", ⟨2, .other, 0⟩⟩, ⟨["p", "fc"], 2, "fc", ⟨3, .linear 4 8, 11⟩⟩,
   ⟨["q"], 0, "q", ⟨2, .other, 0⟩⟩, ⟨["q", "fc"], 2, "fc", ⟨3, .linear 4 8, 11⟩⟩, ⟨["out"], 0, "out", ⟨4, .linear 8 2, 12⟩⟩]⟩

/-- One linear layer under two names. -/
def tied : Net := ⟨⟨0, .other, 0⟩, [⟨["a"], 0, "a", ⟨1, .linear 4 4, 7⟩⟩, ⟨["b"], 0, "b", ⟨1, .linear 4 4, 7⟩⟩]⟩

/-- A model that is a single linear layer. -/
def single : Net := ⟨⟨0, .linear 4 4, 7⟩, []⟩

/-- A linear layer that holds another module. -/
def holding : Net := ⟨⟨0, .linear 4 4, 7⟩, [⟨["act"], 0, "act", ⟨1, .other, 0⟩⟩]⟩

section Layers
variable {W D : Type}

end Layers

mutual
/-- A module with everything below. -/
def Tree.subs : Tree → List Tree
  | .node i w o cs => .node i w o cs :: subsIn cs
def subsIn : List Tree → List Tree
  | [] => []
  | t :: ts => t.subs ++ subsIn ts
end

mutual
/-- What may happen in the forward of `t`: it uses its own tensors, if it has any, and calls its
children (any number of times, in any order). -/
def Call.Ok (t : Tree) : Call → Prop
  | .use i => i = t.id ∧ t.own = true
  | .mk t' body => t' ∈ t.children ∧ OkIn t' body
def OkIn (t : Tree) : List Call → Prop
  | [] => True
  | c :: cs => c.Ok t ∧ OkIn t cs
end

/-- All tensors in main memory. -/
def cpu : Place := fun _ => false

/-- A model with a block of two layers and a layer. -/
def blockNet (own : Bool) : Tree :=
  .node 0 false own [.node 1 false false [.node 2 false true [], .node 3 true false [.node 4 false true []]], .node 5 false true []]

/-- A `with` statement. -/
def Block.NoSet {T : Type} : Block T → Prop
  | .set _ => False
  | .within _ _ => True

end Verif.Compressor
