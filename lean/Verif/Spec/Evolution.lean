import Verif.Model.Evolution
import Mathlib.Data.List.Perm.Basic
import Mathlib.Tactic.Linarith
import Mathlib.Data.List.Infix

/-! Definitions used in the statements of `Verif/Props/Evolution.lean`. -/

namespace Verif.Evolution
open Verif

variable {S : Type}

/-! ### Specification -/

/-- The candidates that get a score in an epoch started in state `st`. -/
def evaluatedIn (cfg : Cfg) (inp : Inputs S) (st : State S) : List (Cand S) :=
  match sampleLoop cfg inp.samples st.pool with
  | .ok pool => evaluate inp.score pool
  | .error _ => []

/-- Several epochs in a row, all of which complete; the second component lists all
candidates scored on the way. -/
def runEpochs (cfg : Cfg) : List (Inputs S) → State S → Except Stop (State S × List (Cand S))
  | [], st => .ok (st, [])
  | i :: rest, st =>
    match runEpoch cfg i st with
    | .error e => .error e
    | .ok st' => match runEpochs cfg rest st' with
      | .error e => .error e
      | .ok (st'', ev) => .ok (st'', evaluatedIn cfg i st ++ ev)

/-- `top` is a best-`k` selection of `all`: sorted, at most `k`, and what is left
out scores no higher than what is in. -/
def BestOf (k : Nat) (top all : List (Cand S)) : Prop :=
  ∃ rest, (top ++ rest).Perm all ∧ top.Pairwise (fun a b => a.score ≥ b.score) ∧
    (∀ t ∈ top, ∀ r ∈ rest, r.score ≤ t.score) ∧ top.length = min k all.length

/-- Value inside the bounds, inclusive. -/
def Inside : Bound → ℚ → Prop
  | .scalar v, x => 0 ≤ x ∧ x ≤ v
  | .pair lo hi, x => lo ≤ x ∧ x ≤ hi

/-- Value at a key of a dictionary. -/
def lookup {G C : Type} [DecidableEq G] (d : Subnet G C) (k : G) : Option C :=
  (d.find? (fun p => decide (p.1 = k))).map (·.2)

/-- A two-epoch search with two candidates per epoch and a top-2 list. -/
def exCfg : Cfg := ⟨2, 2, 1, 0, fun _ => true⟩

def exInputs : List (Inputs Nat) :=
  [⟨[(1, fun _ => none), (2, fun _ => none)], fun i => if i = 0 then 5 else 7, fun i => (10 + i, fun _ => none), fun i => (i, fun _ => none)⟩,
   ⟨[(3, fun _ => none)], fun i => if i = 0 then 6 else 1, fun i => (20 + i, fun _ => none), fun i => (i, fun _ => none)⟩]

section crossover
variable {G C : Type} [DecidableEq G]

end crossover

/-- Files after epochs `first, first + 1, ..., first + n - 1` have been saved. -/
def savedFiles (keep : Int) (first : Int) : Nat → List Int → List Int
  | 0, files => files
  | n + 1, files => saveCkpt keep (first + n) (savedFiles keep first n files)

end Verif.Evolution
