import Verif.Py
import Mathlib.Algebra.BigOperators.Group.List.Basic

/-! Model of how subnets are drawn: `OneShotMutableOP.sample_choice` and `OneShotProbMutableOP` of `mmrazor/models/mutables/
mutable_module/one_shot_mutable_module.py`, `OneShotMutableValue.sample_choice` of `mmrazor/models/mutables/mutable_value/
mutable_value.py`, `OneShotMutableChannelUnit.sample_choice` of `mmrazor/models/mutables/mutable_channel/units/
one_shot_mutable_channel_unit.py`, put together by `NasMutator.sample_choices` (`mmrazor/models/mutators/nas_mutator.py`, kind
`random`, without architecture parameters). The random numbers are inputs; numbers are exact. -/

namespace Verif.SampleLaw
open Verif

variable {C : Type}

/-- One group, one_shot_mutable_module.py lines 250-252, mutable_value.py lines 205-211 and one_shot_mutable_channel_unit.py
lines 103-106: each of the positions `0, …, n - 1` is drawn equally often. -/
def pick (choices : List C) (k : ℕ) : Option C := choices[k]?

/-- All groups, nas_mutator.py lines 158-175 (the names of the groups are left out): one draw for each group, in order. -/
def sample : List (List C) → List ℕ → List (Option C)
  | g :: gs, k :: ks => pick g k :: sample gs ks
  | _, _ => []

/-- The equally likely draws for groups of choices: one position for each. -/
def draws : List (List C) → List (List ℕ)
  | [] => [[]]
  | g :: gs => (List.range g.length).flatMap fun k => (draws gs).map (k :: ·)

/-- The draws of `t` training iterations (spos.py lines 80-87 draws anew for every batch). -/
def histories (gs : List (List C)) : ℕ → List (List (List ℕ))
  | 0 => [[]]
  | t + 1 => (draws gs).flatMap fun d => (histories gs t).map (d :: ·)

/-- `np.finfo(np.float64).eps`. -/
def eps : ℚ := 1 / 2 ^ 52

/-- `OneShotProbMutableOP.__init__`, lines 289-292 (`probs` is `none` if nothing is given). -/
def makeProb (probs : Option (List ℚ)) : Except Err (List ℚ) :=
  match probs with
  | none => .error .assertion
  | some ps => if ps.sum - 1 < eps then .ok ps else .error .assertion

/-- `list(accumulate(weights))` of `random.choices`. -/
def accumulate (ws : List ℚ) : List ℚ := (List.range ws.length).map fun (i : ℕ) => (ws.take (i + 1)).sum

/-- `random.choices(population, weights, k=1)[0]` (Python 3.9 or later) with the random number `r`: the sums of weights are searched,
without the last one. Simplification: the search goes from the left; bisection does the same if no weight is negative. -/
def randomChoices (cs : List C) (ws : List ℚ) (r : ℚ) : Except Err C :=
  if ws.length ≠ cs.length then .error .value
  else match (accumulate ws).getLast? with
    | none => .error .index
    | some total =>
      if total ≤ 0 then .error .value
      else match cs[((accumulate ws).dropLast.takeWhile fun c => decide (c ≤ r * total)).length]? with
        | some c => .ok c
        | none => .error .index

/-- `OneShotProbMutableOP.sample_choice`, lines 294-299. -/
def sampleProb (cs : List C) (probs : List ℚ) (r : ℚ) : Except Err C :=
  if probs.length = cs.length then randomChoices cs probs r else .error .assertion

end Verif.SampleLaw
