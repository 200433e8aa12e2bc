import Verif.Model.L1Norm
import Verif.Model.ItePrune
import Mathlib.Logic.Function.Basic

/-! Model of iterative pruning with L1 units: `ItePruneAlgorithm.forward`
(`algorithms/pruning/ite_prune_algorithm.py`, see `Verif/Model/ItePrune.lean`) with the units of
`Verif/Model/L1Norm.lean`, while the weights are trained. -/

namespace Verif.L1Train
open Verif ChannelUnit SeqChannel L1Norm ItePrune

/-- A unit and its name. -/
structure LUnit where
  name : String
  cfg : Cfg

/-- A value of a structure as a choice. -/
def choiceOf : Num → Choice
  | .int k => .num k
  | .float q => .ratio q

/-- One turn of `set_choices`, channel_mutator.py lines 225-227; `w` are the layers of the units with their
current weights. -/
def setOne (A : Arith) (us : List LUnit) (w : String → List Out) (masks : String → List Bool) (e : String × Num) :
    Except Err (String → List Bool) :=
  match us.find? (·.name = e.1) with
  | none => .error .key
  | some u =>
    match setChoice A u.cfg (w e.1) (choiceOf e.2) with
    | .error x => .error x
    | .ok mk => .ok (Function.update masks e.1 mk)

/-- `forward` in training, ite_prune_algorithm.py lines 195-205, at iteration `it`. -/
def step (A : Arith) (rnd : ℚ → ℚ) (us : List LUnit) (m : Manager) (w : String → List Out) (it : ℕ)
    (masks : String → List Bool) : Except Err (String → List Bool) :=
  match m.isPruneTime it with
  | .error e => .error e
  | .ok false => .ok masks
  | .ok true =>
    match m.pruneAt rnd it with
    | .error e => .error e
    | .ok cfg => cfg.foldlM (setOne A us w) masks

/-- The first `n` iterations of training; `w it` are the weights at iteration `it`. -/
def train (A : Arith) (rnd : ℚ → ℚ) (us : List LUnit) (m : Manager) (w : ℕ → String → List Out)
    (masks : String → List Bool) : ℕ → Except Err (String → List Bool)
  | 0 => .ok masks
  | n + 1 =>
    match train A rnd us m w masks n with
    | .error e => .error e
    | .ok s => step A rnd us m (w n) n s

end Verif.L1Train
