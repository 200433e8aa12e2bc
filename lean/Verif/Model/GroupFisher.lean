import Verif.Py
import Mathlib.Data.Rat.Floor

/-! Model of the pruning step of `mmrazor/implementations/pruning/group_fisher`. Numbers
are exact rationals or NaN (`none`); infinities and rounding are not modelled. -/

namespace Verif.GroupFisher
open Verif

/-- A unit: the mask of its channels and `normalized_fisher_info` of each channel. -/
structure FUnit where
  mask : List Bool
  fisher : List (Option ℚ)
deriving DecidableEq, Repr

/-- `mutable_channel.activated_channels`. -/
def FUnit.active (u : FUnit) : Nat := u.mask.count true

/-- `tensor.max()`: NaN if an entry is NaN. -/
def tmax : List (Option ℚ) → Option ℚ
  | [] => some 0
  | [x] => x
  | x :: y :: l => match x, tmax (y :: l) with
    | some a, some b => some (max a b)
    | _, _ => none

/-- `importance`, unit.py lines 128-134: pruned channels get the maximum plus one. -/
def FUnit.importance (u : FUnit) : List (Option ℚ) :=
  List.zipWith (fun m f => if m then f else (tmax u.fisher).map (· + 1)) u.mask u.fisher

/-- `tensor.argmin()` (first index of the minimum). -/
def argmin : List ℚ → Nat
  | [] => 0
  | [_] => 0
  | x :: y :: l => if x ≤ ((y :: l)[argmin (y :: l)]?).getD 0 then 0 else argmin (y :: l) + 1

/-- `tensor.min()`. -/
def tmin (l : List ℚ) : ℚ := (l[argmin l]?).getD 0

/-- The numbers of a tensor without NaN. -/
def numbers (l : List (Option ℚ)) : List ℚ := l.map (·.getD 0)

/-- `try_to_prune_min_channel`, unit.py lines 67-75. -/
def FUnit.tryPrune (u : FUnit) : FUnit :=
  if 1 < u.active then { u with mask := u.mask.set (argmin (numbers u.importance)) false } else u

/-- The loop of `try_prune`, mutator.py lines 61-72, over the units from index `i` on;
`none` when it returns because of NaN, otherwise the chosen unit. -/
def choose (minImp : ℚ) (minUnit i : Nat) : List FUnit → Option Nat
  | [] => some minUnit
  | u :: us =>
    if 1 < u.active then
      if u.importance.any (·.isNone) then none
      else if tmin (numbers u.importance) < minImp then choose (tmin (numbers u.importance)) i (i + 1) us
      else choose minImp minUnit (i + 1) us
    else choose minImp minUnit (i + 1) us

/-- `try_prune`, mutator.py lines 56-77. -/
def tryPrune (us : List FUnit) : Except Err (List FUnit) :=
  if us = [] then .error .index
  else match choose 100000 0 0 us with
    | none => .ok us
    | some i => .ok (us.modify i FUnit.tryPrune)

/-- `update_fisher_info`, unit.py lines 140-151: add what this batch contributed. -/
def FUnit.update (u : FUnit) (b : List (Option ℚ)) : FUnit :=
  { u with fisher := List.zipWith (fun x y => x.bind fun a => y.map (a + ·)) u.fisher b }

/-- `reset_fisher_info`, unit.py lines 136-138. -/
def FUnit.reset (u : FUnit) : FUnit := { u with fisher := u.fisher.map fun _ => some 0 }

/-- One `_train_step`, algorithm.py lines 63-77; `batch` is the contribution of the batch
to each channel of each unit. -/
def trainStep (interval it : Nat) (batch : List (List (Option ℚ))) (us : List FUnit) : Except Err (List FUnit) :=
  let us1 := List.zipWith FUnit.update us batch
  if interval = 0 then .error .zeroDivision
  else if it % interval = 0 then do
    let us2 ← tryPrune us1
    return us2.map FUnit.reset
  else .ok us1

/-- A run from iteration `it`. -/
def run (interval it : Nat) : List (List (List (Option ℚ))) → List FUnit → Except Err (List FUnit)
  | [], us => .ok us
  | b :: bs, us => do
    let us1 ← trainStep interval it b us
    run interval (it + 1) bs us1

end Verif.GroupFisher
