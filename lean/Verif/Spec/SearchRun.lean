import Verif.Model.SearchRun
import Verif.Spec.Evolution
import Verif.Spec.Mutator

/-! Definitions used in the statements of `Verif/Props/SearchRun.lean`. -/

namespace Verif.SearchRun
open Verif Evolution Mutator

variable {N C : Type} [DecidableEq N]

/-- The search is set up properly: the groups are well formed and the elements of a group accept the same
choices; the probabilities lie between 0 and 1; the estimator reports every constrained resource and the
evaluator, if it reports anything, the score. -/
structure Sound (w : World N C) : Prop where
  wf : Wf w.groups
  same : ∀ g ∈ w.groups, ∀ e ∈ g.2, ∀ e' ∈ g.2, ∀ c, Legal w.store e c → Legal w.store e' c
  mutateProb : 0 ≤ w.mutateProb ∧ w.mutateProb ≤ 1
  crossoverProb : 0 ≤ w.crossoverProb ∧ w.crossoverProb ≤ 1
  reports : ∀ cs, w.constraints = some cs → ∀ s, ∀ kb ∈ cs, w.estimate s kb.1 ≠ none
  scored : ∀ e i s, w.validate e i s = [] ∨ (w.validate e i s).lookup w.scoreKey ≠ none

/-- There is room for one candidate and one of the best, and no more descendants are asked for than
candidates. -/
structure Sizes (w : World N C) : Prop where
  candidates : 1 ≤ w.numCandidates
  topK : 1 ≤ w.topK
  descendants : w.numMutation + w.numCrossover ≤ w.numCandidates

/-- Sampling draws choices that the elements accept. -/
def Sane (w : World N C) (o : Offers C) : Prop :=
  ∀ g ∈ w.groups, ∀ e ∈ g.2, Legal w.store e (o.random e) ∧ Legal w.store e (o.byParam e)

/-- The same for all draws of an epoch. -/
structure SaneDraws (w : World N C) (d : Draws C) : Prop where
  samples : ∀ o ∈ d.samples, Sane w o
  mutations : ∀ i, Sane w (d.mutOffers i)

/-- A subnet of the search space: one choice for every group, accepted by all elements of the group. -/
structure Valid (w : World N C) (sub : Subnet N C) : Prop where
  keys : sub.map (·.1) = w.groups.map (·.1)
  legal : ∀ p ∈ sub, ∀ g ∈ w.groups, g.1 = p.1 → ∀ e ∈ g.2, Legal w.store e p.2

/-- The model with a subnet chosen: elements of a group have the choice of the group, all others are as
in the model `s0` the search was started with. -/
structure Chosen (w : World N C) (s0 : St C) (sub : Subnet N C) (s : St C) : Prop where
  inside : ∀ p ∈ sub, ∀ g ∈ w.groups, g.1 = p.1 → ∀ e ∈ g.2, s e = p.2
  outside : ∀ e, (∀ g ∈ w.groups, e ∉ g.2) → s e = s0 e

/-- The subnet keeps to the constraints: the estimates for the model with this subnet chosen are inside
the bounds. -/
def Within (w : World N C) (s0 : St C) (sub : Subnet N C) : Prop :=
  ∀ s, Chosen w s0 sub s → ∀ cs, w.constraints = some cs → ∀ kb ∈ cs,
    ∃ x, w.estimate s kb.1 = some x ∧ Inside kb.2 x

/-- The resources noted with a candidate are the estimates for the model with its choices; without
constraints nothing is estimated. -/
def Noted (w : World N C) (s0 : St C) (c : Member N C) : Prop :=
  ∀ s, Chosen w s0 c.subnet s → c.res = if w.constraints = none then fun _ => none else w.estimate s

/-- The score of a candidate comes from a validation of the model with its choices: the metric `x` up to
half a hundredth. -/
def Measured (w : World N C) (s0 : St C) (c : Member N C) (x : ℚ) : Prop :=
  ∃ e i s, Chosen w s0 c.subnet s ∧ (w.validate e i s).lookup w.scoreKey = some x ∧ |c.score - x| ≤ 1 / 200

/-- The score of a candidate: measured, or 0 when the evaluator reports nothing. -/
def Judged (w : World N C) (s0 : St C) (c : Member N C) : Prop :=
  (∃ x, Measured w s0 c x) ∨ (c.score = 0 ∧ ∃ e i s, Chosen w s0 c.subnet s ∧ w.validate e i s = [])

/-- Two groups of two elements with choices 0, 1, 2; the flops are the sum of the choices and may be at
most 6, the accuracy is a third of the flops. -/
def exWorld : World String Nat where
  store := fun _ c => if c ≤ 2 then .ok c else .error .value
  groups := [("a", [0, 1]), ("b", [2, 3])]
  arch := fun _ => false
  estimate := fun s k => if k = "flops" then some ((s 0 + s 1 + s 2 + s 3 : ℕ) : ℚ) else none
  validate := fun _ _ s => [("acc", ((s 0 + s 1 + s 2 + s 3 : ℕ) : ℚ) / 3)]
  scoreKey := "acc"
  constraints := some [("flops", .scalar 6)]
  numCandidates := 2
  topK := 2
  numMutation := 1
  numCrossover := 1
  mutateProb := 1 / 10
  crossoverProb := 1 / 2

/-- Offers of a draw: `a` for the first group, `b` for the second. -/
def exOffers (a b : Nat) : Offers Nat := ⟨fun _ => 2, fun _ => 0, fun e => if e < 2 then a else b, fun _ => 0⟩

/-- Two epochs; the first sample breaks the constraint. -/
def exDraws : List (Draws Nat) :=
  [⟨[exOffers 2 2, exOffers 0 1, exOffers 1 0, exOffers 0 0], fun i => i, fun _ => exOffers 2 1,
      fun _ j => if j = 0 then 0 else 1 / 2, fun _ => 0, fun _ => 1, fun _ j => if j = 1 then 0 else 9 / 10⟩,
   ⟨[exOffers 0 0], fun i => i, fun _ => exOffers 1 1, fun _ _ => 1 / 2, fun _ => 0, fun _ => 1, fun _ _ => 1 / 2⟩]

end Verif.SearchRun
