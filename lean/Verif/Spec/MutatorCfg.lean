import Verif.Model.MutatorCfg
import Mathlib.Tactic

/-! Definitions used in the statements of `Verif/Props/MutatorCfg.lean`. -/

namespace Verif.MutatorCfg
open Verif

variable {C : Type}

/-- What is expected of a class of units: the order of the arguments does not matter; the arguments
that a unit reports make the same unit again; the number of channels is kept. -/
structure Lawful (cls : Cls C) : Prop where
  order : ∀ a b : Args, (∀ k, a.lookup k = b.lookup k) → cls.complete a = cls.complete b
  closed : ∀ a b : Args, cls.complete a = .ok b → cls.complete b = .ok b
  num : ∀ a b : Args, cls.complete a = .ok b → b.lookup "num_channels" = a.lookup "num_channels"

/-- A unit of a mutator with the default arguments `d`, whose choice is accepted and kept. -/
structure Ready (cls : Cls C) (d : Args) (u : Unit' C) : Prop where
  args : cls.complete u.args = .ok u.args
  defaults : ∀ p ∈ d, (u.args.lookup p.1).isSome
  ins : u.ins.Nodup ∧ ∀ c ∈ u.ins, c.out = false
  outs : u.outs.Nodup ∧ ∀ c ∈ u.outs, c.out = true
  set : cls.set u.args u.choice = .ok u.choice
  kept : cls.prepared u.args u.choice = u.choice

/-- The range of a configured channel in a unit of `n` channels. -/
def chanOf (n : Nat) (out : Bool) (c : ChanCfg) : Chan := ⟨c.name, c.start.getD 0, c.stop.getD n, out⟩

/-- A unit of the example: a convolution and its normalisation, read by another convolution. -/
def exUnit : Unit' Nat :=
  { name := none
    args := [("num_channels", .num 8), ("choice_mode", .tok "number"), ("divisor", .num 2), ("min_value", .num 1), ("min_ratio", .tok "0.9")]
    ins := [⟨"bn", 0, 8, false⟩, ⟨"conv2", 0, 8, false⟩]
    outs := [⟨"conv1", 0, 8, true⟩, ⟨"bn", 0, 8, true⟩]
    choice := 6 }

/-- The traced unit of the examples. -/
def exTraced : Traced := ⟨8, [⟨"bn", 0, 8, false⟩, ⟨"conv2", 0, 8, false⟩], [⟨"conv1", 0, 8, true⟩, ⟨"bn", 0, 8, true⟩]⟩

/-- A configured one-shot unit with the choice of half the channels. -/
def exHalf : UnitCfg Nat := ⟨some [("num_channels", .num 8)], some ([⟨"conv2", none, none⟩], [⟨"conv1", none, none⟩]), some 50⟩

end Verif.MutatorCfg
