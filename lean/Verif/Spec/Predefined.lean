import Verif.Model.Predefined
import Mathlib.Data.List.Nodup

/-! Definitions used in the statements of `Verif/Props/Predefined.lean`. -/

namespace Verif.Predefined
open Verif

/-- The registered thing depends on the choice `m` and on no other choice of channels. -/
def Depends : Use → Nat → Prop
  | .direct m', m => m' = m
  | .derived chans _, m => chans ≠ [] ∧ ∀ x ∈ chans, x = m

/-- How many times the channels of the choice the registered thing takes. -/
def times : Use → Nat
  | .direct _ => 1
  | .derived _ ratio => ratio

/-- What is registered for the outputs (`true`) or inputs of a layer. -/
def side (l : Layer) : Bool → Option (List Entry)
  | true => l.outs
  | false => l.ins

/-- The range `c` is registered for an output (`true`) or input with something that depends on `m`. -/
def Registered (ls : List Layer) (out : Bool) (c : Chan) (m : Nat) : Prop :=
  ∃ l ∈ ls, ∃ es, side l out = some es ∧ ∃ e ∈ es, c = ⟨l.name, e.start, e.stop⟩ ∧ Depends e.use m

/-- All that is registered in the model, in the order of the layers, inputs before outputs. -/
def uses (ls : List Layer) : List Use :=
  ls.flatMap fun l => ((l.ins.getD []) ++ (l.outs.getD [])).map (·.use)

/-- The distinct elements in the order of their first occurrence. -/
def firsts : List Nat → List Nat
  | [] => []
  | x :: xs => x :: (firsts xs).filter fun y => decide (y ≠ x)

/-- The numbers that a choice offers: at least one channel, all of them if it has no candidates. -/
def offered (c : Choice) : List Nat := (if c.cands = [] then [c.num] else c.cands).map (max 1)

/-- Settings of units one after the other. -/
def setMany : List (CUnit × Nat) → Store → Except Err Store
  | [], s => .ok s
  | (u, c) :: rest, s => match setUnit u c s with
    | .error err => .error err
    | .ok s => setMany rest s

/-- The last number set for the choice `m`, if any. -/
def lastSet (m : Nat) (h : List (CUnit × Nat)) : Option Nat :=
  ((h.filter fun p => decide (p.1.ch = m)).getLast?).map (·.2)

/-- A model with two layers one behind the other, the second with a derived input. -/
def exLayers : List Layer :=
  [⟨"conv1", some [⟨0, 3, .direct 0⟩], some [⟨0, 8, .direct 1⟩]⟩,
   ⟨"conv2", some [⟨0, 16, .derived [1, 1] 2⟩], some [⟨0, 4, .direct 2⟩]⟩]

def exStore : Store := fun m =>
  if m = 0 then ⟨3, [3], 3⟩ else if m = 1 then ⟨8, [8, 4], 8⟩ else ⟨4, [], 4⟩

end Verif.Predefined
