import Verif.Model.EstimateOptions
import Mathlib.Tactic

/-! Definitions used in the statements of `Verif/Props/EstimateOptions.lean`. -/

namespace Verif.EstimateOptions
open Verif

/-- The option a user expects: the one given, else the one in the counting options the
estimator was built with, else its common setting, else the default. -/
def expected (e : Estimator) (opts : Dict) (k : String) : Option Val :=
  (opts.get k).orElse fun _ => (e.cfg.get k).orElse fun _ => (e.own k).orElse fun _ => defaults.get k

/-- The value an option has in the counting call. -/
def used (cfg : Dict) (k : String) : Option Val := (Dict.merge defaults cfg).get k

/-- One call on an estimator. -/
inductive Op where
  | estimate (opts : Dict)
  | separate (opts : Dict)

/-- The estimator after a history of calls. -/
def after {α : Type} (count : (String → Option Val) → α × α × List (String × α × α)) (e : Estimator) : List Op → Estimator
  | [] => e
  | .estimate o :: r => after count (e.estimate count o).1 r
  | .separate o :: r => after count (e.separate count o).1 r

/-- No call for separate modules relies on the estimator's own options. -/
def Explicit : Op → Prop
  | .estimate _ => True
  | .separate o => o ≠ []

end Verif.EstimateOptions
