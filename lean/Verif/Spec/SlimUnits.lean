import Verif.Model.SlimUnits
import Verif.Spec.ChannelUnit

/-! What a well configured slimmable network is. -/

namespace Verif.SlimUnits
open Verif SeqChannel ChannelUnit

/-- A choice of a unit that rounding leaves alone: a number of channels that the divisor divides,
neither below the minimum nor above the width. -/
def Legal (u : Cfg) (c : Choice) : Prop :=
  ∃ k : Nat, c = .num k ∧ u.divisor ∣ (k : Int) ∧ effMin u ≤ k ∧ k ≤ u.n

/-- The widths that the candidates of a unit give: the requested ones, or the full width if there are
none. -/
def Wide (u : SUnit) (k : Nat) : Prop :=
  Choice.num k ∈ u.raw ∨ (u.raw = [] ∧ k = u.cfg.n)

/-- A unit in number mode with legal candidates. -/
structure GoodUnit (u : SUnit) : Prop where
  mode : u.cfg.ratioMode = false
  divisor : 1 ≤ u.cfg.divisor
  ratio : u.cfg.minRatio ≤ 1
  legal : ∀ c ∈ u.raw, Legal u.cfg c
  full : u.raw = [] → Legal u.cfg (.num u.cfg.n)

/-- A network in which every normalisation layer belongs to one unit and has its width. -/
structure GoodNet (us : List SUnit) (norms : List Norm) : Prop where
  names : (us.map SUnit.name).Nodup
  units : ∀ u ∈ us, GoodUnit u
  norms : ∀ m ∈ norms, m.cands = [] ∧ ∃ u ∈ us, m.parts = [u.name] ∧ m.num = u.cfg.n

/-- A dictionary of choices: each of its units once, with one of its candidates. -/
structure GoodChoices (us : List SUnit) (cs : List (String × Choice)) : Prop where
  names : (cs.map Prod.fst).Nodup
  cands : ∀ p ∈ cs, ∃ u ∈ us, u.name = p.1 ∧ ∃ k : Nat, p.2 = .num k ∧ Wide u k

/-- The layer that belongs to a width. -/
def expected (num k : Nat) : Layer := if k = num then .own else .cand k

end Verif.SlimUnits
