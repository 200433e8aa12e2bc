import Verif.Py
import Mathlib.Algebra.Module.Defs
import Mathlib.Algebra.Order.Ring.Rat
import Mathlib.Data.List.Infix

/-! Model of the training step of DMCP, `mmrazor/models/algorithms/pruning/dmcp.py` lines 110-244
(and the same in `DMCPDDP`, lines 326-425).

There are two optimizers, one for the weights and one for the architecture parameters. Each
backward pass adds to the gradients of both; `OptimWrapper.update_params` (mmengine, without
accumulation) takes a step and clears the gradients of its own parameters only. Losses are
represented by their gradients, as functions of the subnet, the batch, the weights and the
architecture parameters; what the teacher recorders hold is represented by the pass that
produced it. `cur_sample_prob` is an exact number. -/

namespace Verif.DmcpTrain
open Verif

abbrev Name := List Char

/-- The branch of lines 142-199 taken for an entry of `strategy`. `kind in ('max')` is a test for
a substring, as the parentheses do not make a tuple. -/
inductive Kind where
  | max | min | archRandom | scheduledRandom | ignored
deriving DecidableEq, Repr

/-- The chain of `if`s, dmcp.py lines 143, 157, 164 and 181. -/
def kindOf (s : Name) : Kind :=
  if s <:+: "max".toList then .max
  else if s <:+: "min".toList then .min
  else if s <:+: "arch_random".toList then .archRandom
  else if s <:+: "scheduled_random".toList then .scheduledRandom
  else .ignored

/-- The mode given to `set_subnet`, dmcp.py lines 103-108. -/
inductive Mode where
  | max | min | random | direct
deriving DecidableEq, Repr

/-- A forward pass: mode, random draw, whether the architecture parameters are switched on, and
the batch. -/
structure Pass (R B : Type) where
  mode : Mode
  draw : R
  arch : Bool
  batch : B
deriving DecidableEq

/-- What a run is about: the constructor arguments, the gradients (for the weights and for the
architecture parameters) of the task loss, the distillation loss, the loss in evaluation mode
used for the architecture and the FLOPs loss, and the optimizers. -/
structure Task (R B W A Ow Oa : Type) where
  strategy : List Name
  archStart : Nat
  archFreq : Nat
  distillAfter : Nat
  hard : Pass R B → W → A → W × A
  soft : Pass R B → Pass R B × W × A → W → A → W × A
  archLoss : B → W → A → W × A
  flops : A → A
  optW : Ow → W → W → Ow × W
  optA : Oa → A → A → Oa × A

/-- What was done: a weight step (with the record of the teacher if the distillation loss was
used), or an update of the architecture parameters. -/
inductive Ev (R B T : Type) where
  | weight (p : Pass R B) (teacher : Option T)
  | arch (b : B)
deriving DecidableEq

/-- The state. -/
structure St (R B W A Ow Oa : Type) where
  w : W
  a : A
  gw : W
  ga : A
  ow : Ow
  oa : Oa
  archTrain : Bool
  prob : ℚ
  teacher : Option (Pass R B × W × A)
  log : List (Ev R B (Pass R B × W × A))

variable {R B W A Ow Oa : Type} [AddCommGroup W] [AddCommGroup A]

/-- `optim_wrapper['architecture'].update_params(loss)`. -/
def St.weightStep (t : Task R B W A Ow Oa) (s : St R B W A Ow Oa) (g : W × A) : St R B W A Ow Oa :=
  { s with w := (t.optW s.ow s.w (s.gw + g.1)).2, ow := (t.optW s.ow s.w (s.gw + g.1)).1, gw := 0, ga := s.ga + g.2 }

/-- `optim_wrapper['mutator'].update_params(loss)`. -/
def St.archStep (t : Task R B W A Ow Oa) (s : St R B W A Ow Oa) (g : W × A) : St R B W A Ow Oa :=
  { s with a := (t.optA s.oa s.a (s.ga + g.2)).2, oa := (t.optA s.oa s.a (s.ga + g.2)).1, ga := 0, gw := s.gw + g.1 }

/-- The branch for the largest subnet, dmcp.py lines 143-156. -/
def St.maxPass (t : Task R B W A Ow Oa) (r : R) (b : B) (s : St R B W A Ow Oa) : St R B W A Ow Oa :=
  let p : Pass R B := ⟨.max, r, s.archTrain, b⟩
  { s.weightStep t (t.hard p s.w s.a) with teacher := some (p, s.w, s.a), log := s.log ++ [.weight p none] }

/-- `distill_step`, dmcp.py lines 117-134, after `set_subnet(mode)`. A record that does not exist is an
`AssertionError` of the recorder. -/
def St.distill (t : Task R B W A Ow Oa) (it : Nat) (mode : Mode) (r : R) (b : B) (s : St R B W A Ow Oa) :
    Except Err (St R B W A Ow Oa) :=
  let p : Pass R B := ⟨mode, r, s.archTrain, b⟩
  if t.distillAfter < it then
    match s.teacher with
    | none => .error .assertion
    | some te =>
      .ok { s.weightStep t (t.hard p s.w s.a + t.soft p te s.w s.a) with log := s.log ++ [.weight p (some te)] }
  else .ok { s.weightStep t (t.hard p s.w s.a) with log := s.log ++ [.weight p none] }

/-- The body of the loop over `strategy`, dmcp.py lines 142-199; `d` is the random draw of the subnet and
the value of `random.uniform(0, 1)`. -/
def St.entry (t : Task R B W A Ow Oa) (it : Nat) (b : B) (s : St R B W A Ow Oa) (e : Name × R × ℚ) :
    Except Err (St R B W A Ow Oa) :=
  match kindOf e.1 with
  | .max => .ok (s.maxPass t e.2.1 b)
  | .min => s.distill t it .min e.2.1 b
  | .archRandom => s.distill t it (if s.archTrain then .direct else .random) e.2.1 b
  | .scheduledRandom =>
    (s.distill t it (if s.prob < e.2.2 ∧ s.archTrain then .direct else .random) e.2.1 b).map fun s' =>
      { s' with prob := s'.prob * (9999 / 10000) }
  | .ignored => .ok s

/-- `_update_arch_params` with the preceding `zero_grad`, dmcp.py lines 204-208 and 225-244. -/
def St.updateArch (t : Task R B W A Ow Oa) (b : B) (s : St R B W A Ow Oa) : St R B W A Ow Oa :=
  let s := { s with ga := 0 }
  let s := s.archStep t (t.archLoss b s.w s.a)
  let s := s.archStep t (0, t.flops s.a)
  { s with log := s.log ++ [.arch b] }

/-- dmcp.py lines 201-209. -/
def St.finish (t : Task R B W A Ow Oa) (it : Nat) (b : B) (s : St R B W A Ow Oa) : Except Err (St R B W A Ow Oa) :=
  if s.archTrain then
    if t.archFreq = 0 then .error .zeroDivision
    else if it % t.archFreq = 0 then .ok (s.updateArch t b)
    else .ok s
  else .ok s

/-- `train_step`, dmcp.py lines 110-209: `ds` are the draws, one for each entry of `strategy`. -/
def St.step (t : Task R B W A Ow Oa) (it : Nat) (b : B) (ds : List (R × ℚ)) (s : St R B W A Ow Oa) :
    Except Err (St R B W A Ow Oa) := do
  let s := if s.archTrain = false ∧ t.archStart < it then { s with archTrain := true } else s
  let s ← (t.strategy.zip ds).foldlM (St.entry t it b) s
  s.finish t it b

/-- Iterations `it`, `it + 1`, ... -/
def St.run (t : Task R B W A Ow Oa) : Nat → List (B × List (R × ℚ)) → St R B W A Ow Oa → Except Err (St R B W A Ow Oa)
  | _, [], s => .ok s
  | it, (b, ds) :: rest, s => do
    let s ← s.step t it b ds
    s.run t (it + 1) rest

/-- A new process with the weights, parameters and optimizers built or loaded from a
checkpoint; the rest is not part of a checkpoint. -/
def fresh (w : W) (a : A) (ow : Ow) (oa : Oa) : St R B W A Ow Oa :=
  ⟨w, a, 0, 0, ow, oa, false, 1, none, []⟩

/-! ### Names of the reported losses -/

/-- The base of the prefix of a mode, dmcp.py lines 155, 162, 171, 179, 189, 197. -/
def Mode.base : Mode → Name
  | .max => "max_subnet".toList
  | .min => "min_subnet".toList
  | .random => "random_subnet".toList
  | .direct => "direct_subnet".toList

/-- The prefixes used for passes with the given modes: each mode has its own counter, starting
at one (dmcp.py line 141). -/
def prefixes (count : Mode → Nat) : List Mode → List Name
  | [] => []
  | m :: ms => (m.base ++ Nat.toDigits 10 (count m)) :: prefixes (fun k => if k = m then count k + 1 else count k) ms

end Verif.DmcpTrain
