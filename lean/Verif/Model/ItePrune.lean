import Verif.Py
import Verif.Float64
import Mathlib.Data.Rat.Floor

/-! Model of `mmrazor/models/algorithms/pruning/ite_prune_algorithm.py`. Numbers are
exact rationals when `rnd = id`, IEEE doubles when `rnd = double`. -/

namespace Verif.ItePrune
open Verif

/-- A Python number. -/
inductive Num where
  | int (i : Int)
  | float (q : ℚ)
deriving DecidableEq, Repr

/-- Its value. -/
def Num.val : Num → ℚ
  | .int i => i
  | .float q => q

/-- Round to a double, any sign. -/
def double (q : ℚ) : ℚ := if q < 0 then -(fl64 (-q)) else fl64 q

/-- A structure: the value of each unit. -/
abbrev Choices := List (String × Num)

/-- `d[k]`. -/
def lookup (d : Choices) (k : String) : Except Err Num :=
  match d.find? (·.1 = k) with
  | some e => .ok e.2
  | none => .error .key

/-- `ItePruneConfigManager.__init__`, lines 36-51. -/
structure Manager where
  target : Choices
  supernet : Choices
  freq : Nat
  times : Nat
  linear : Bool
deriving DecidableEq, Repr

/-- `is_prune_time`, lines 53-56. -/
def Manager.isPruneTime (m : Manager) (it : Nat) : Except Err Bool :=
  if m.freq = 0 then .error .zeroDivision else .ok (it % m.freq == 0 && decide (it / m.freq < m.times))

/-- The value of one unit after `k` of the prunings, lines 64-73. -/
def Manager.value (rnd : ℚ → ℚ) (m : Manager) (k : Nat) (t s : Num) : Num :=
  let v := if m.linear then rnd (rnd (rnd (t.val - s.val) * rnd ((k : ℚ) / m.times)) + s.val) else t.val
  match s with
  | .int _ => .int (pyInt v)
  | .float _ => if m.linear then .float v else t

/-- `prune_at`, lines 58-74. -/
def Manager.pruneAt (rnd : ℚ → ℚ) (m : Manager) (it : Nat) : Except Err Choices :=
  if m.freq = 0 then .error .zeroDivision
  else if m.times < it / m.freq + 1 then .error .assertion
  else m.target.mapM fun e => do
    let s ← lookup m.supernet e.1
    return (e.1, m.value rnd (it / m.freq + 1) e.2 s)

/-- `mutator.set_choices(config)` on units that take every value they are given. -/
def setChoices (cur cfg : Choices) : Choices :=
  cur.map fun e => match cfg.find? (·.1 = e.1) with
    | some c => (e.1, c.2)
    | none => e

/-- The algorithm: the configured target (lines 122-137), the manager once it exists, and
the current choices of the mutator. -/
structure Alg where
  target : Choices
  freq : Nat
  times : Nat
  linear : Bool
  mgr : Option Manager
  choices : Choices
deriving DecidableEq, Repr

/-- `_init_prune_config_manager`, lines 163-187: the structure to start from is the
current one; targets of unknown units are dropped. -/
def Alg.makeManager (a : Alg) : Manager :=
  ⟨a.target.filter fun e => a.choices.any (·.1 = e.1), a.choices, a.freq, a.times, a.linear⟩

/-- The training part of `forward`, lines 189-213, at iteration `it`. -/
def Alg.step (rnd : ℚ → ℚ) (a : Alg) (it : Nat) : Except Err Alg := do
  let m := a.mgr.getD a.makeManager
  let b ← m.isPruneTime it
  if b then
    let cfg ← m.pruneAt rnd it
    return { a with mgr := some m, choices := setChoices a.choices cfg }
  else return { a with mgr := some m }

/-- Training from iteration `it` for `n` iterations. -/
def Alg.train (rnd : ℚ → ℚ) (a : Alg) (it : Nat) : Nat → Except Err Alg
  | 0 => .ok a
  | n + 1 => do let b ← a.step rnd it; b.train rnd (it + 1) n

/-- Resuming: a new algorithm with the choices of the checkpoint (the masks are buffers);
the manager is not saved. -/
def Alg.resume (a : Alg) : Alg := { a with mgr := none }

end Verif.ItePrune
