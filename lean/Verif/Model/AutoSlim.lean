import Verif.Py
import Verif.Sort

/-! Model of `mmrazor/engine/runner/autoslim_greedy_search_loop.py`.

Units are numbered in the order of their sorted names (line 114), a subnet is the
list of channel bins of the units. The FLOPs of a subnet and its validation score
are arbitrary functions of the bins. -/

namespace Verif.AutoSlim
open Verif

/-- The values kept in a checkpoint, lines 185-189. -/
structure State where
  current : List Nat
  flops : ℚ
  searched : List (List Nat × ℚ)
  deriving DecidableEq

/-- Why a run stops early: an exception, or (model only) the step budget. -/
inductive Stop where
  | raised (e : Err)
  | budget
  deriving DecidableEq

/-- The loop over the units, lines 114-135: `best` is the pair of best score and
best subnet so far; a unit with one bin left is skipped. -/
def pickLoop (score : List Nat → ℚ) (cur : List Nat) :
    List Nat → Option (ℚ × List Nat) → Option (ℚ × List Nat)
  | [], best => best
  | i :: rest, best =>
    let b := cur.getD i 0
    if b = 1 then pickLoop score cur rest best
    else
      let pruned := cur.set i (b - 1)
      let s := score pruned
      match best with
      | none => pickLoop score cur rest (some (s, pruned))
      | some (t, old) =>
        if s > t then pickLoop score cur rest (some (s, pruned))
        else pickLoop score cur rest (some (t, old))

/-- Lines 112-135: the best subnet with one bin less. -/
def pick (score : List Nat → ℚ) (cur : List Nat) : Option (List Nat) :=
  (pickLoop score cur (List.range cur.length) none).map (·.2)

/-- The `while` loop, lines 111-151, for one target. The list of checkpoints grows
by one at every step (line 151). `budget` bounds the number of steps; the loop of
the code has no bound. -/
def shrink (flopsOf score : List Nat → ℚ) (target : ℚ) :
    Nat → State → List State → Except Stop (State × List State)
  | budget, st, ckpts =>
    if st.flops > target then
      match pick score st.current with
      | none => .error (.raised .runtime)
      | some best =>
        match budget with
        | 0 => .error .budget
        | budget + 1 =>
          let st' := { st with current := best, flops := flopsOf best }
          shrink flopsOf score target budget st' (ckpts ++ [st'])
    else .ok (st, ckpts)

/-- Line 153-154: the current subnet is recorded. -/
def record (st : State) : State :=
  { st with searched := st.searched ++ [(st.current, st.flops)] }

/-- The loop over the targets, lines 98-156. `resumed` says whether a checkpoint was
given (`self.resume_from`). -/
def runTargets (flopsOf score : List Nat → ℚ) (resumed : Bool) :
    List ℚ → State → List State → Except Stop (State × List State)
  | [], st, ckpts => .ok (st, ckpts)
  | t :: rest, st, ckpts =>
    if resumed ∧ st.flops ≤ t then runTargets flopsOf score resumed rest st ckpts
    else if st.flops ≤ t then runTargets flopsOf score resumed rest (record st) ckpts
    else
      match shrink flopsOf score t st.current.sum st ckpts with
      | .error e => .error e
      | .ok (st', ckpts') => runTargets flopsOf score resumed rest (record st') ckpts'

/-- `__init__`, lines 71-89: every unit starts with all its bins. A unit without
candidates makes line 165 read position -1 of an empty list. -/
def init (flopsOf : List Nat → ℚ) (bins : List Nat) : Except Stop State :=
  if bins.all (fun b => decide (0 < b)) then .ok ⟨bins, flopsOf bins, []⟩
  else .error (.raised .index)

/-- A run from the start (`ckpt = none`) or from a checkpoint, lines 55 and 91-160.
The subnets in `searched` of the result are the ones written to files, and the
second component lists the checkpoints written. -/
def run (flopsOf score : List Nat → ℚ) (bins : List Nat) (targets : List ℚ)
    (ckpt : Option State) : Except Stop (State × List State) :=
  match init flopsOf bins with
  | .error e => .error e
  | .ok st =>
    let ts := sortBy (fun a b => decide (a ≥ b)) targets
    match ckpt with
    | none => runTargets flopsOf score false ts st []
    | some c => runTargets flopsOf score true ts c []

end Verif.AutoSlim
