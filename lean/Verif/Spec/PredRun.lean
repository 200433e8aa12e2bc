import Verif.Model.PredRun
import Mathlib.Tactic

/-! Definitions used in the statements of `Verif/Props/PredRun.lean`. -/

namespace Verif.PredRun
open Verif

/-- What validating the subnets of a pool gives. -/
def validatedLog {S H : Type} (env : Env S H) (l : List S) : List (S × Source × ℚ) := l.map fun s => (s, .validated, env.rnd (env.real s))

/-- An entry made by a handler. -/
def PredictedBy {S H : Type} (env : Env S H) (h : H) (e : S × Source × ℚ) : Prop :=
  e.2.1 = .predicted ∧ ∃ v, env.predict h e.1 = .ok v ∧ e.2.2 = env.rnd v

/-- The weights after `i` steps on a batch. -/
def weightsAfter {W X : Type} (t : Trainer W X) (b : List X) (w : W) (i : Nat) : W := (t.step b)^[i] w

/-- The draws of a tree are orders of the rows and of the features, and some of the features. -/
def Draw.Valid (d : Draw) (rows width : Nat) : Prop :=
  d.rows.Perm (List.range rows) ∧ d.feats.Perm (List.range width) ∧ 1 ≤ d.n ∧ d.n ≤ width

/-- The samples, of the selected features. -/
def restrict {V : Type} [Inhabited V] (sel : List Nat) (samples : List (List V × ℚ)) : List (List V × ℚ) :=
  samples.map fun p => (sel.map fun i => p.1.getD i default, p.2)

section Search
variable {S H : Type}

/-- Validated scores are the numbers themselves, predicted ones are one higher. -/
def exEnv : Env ℚ ℚ := ⟨id, fun l => .ok l.length, fun h s => .ok (s + h), id⟩
def exInputs : Evolution.Inputs ℚ := ⟨[(7, fun _ => none), (8, fun _ => none)], fun _ => 0, fun _ => (0, fun _ => none), fun _ => (0, fun _ => none)⟩
def exCfg : Evolution.Cfg := ⟨2, 1, 0, 0, fun _ => true⟩
def exState : Evolution.State ℚ := ⟨0, 3, [⟨9, fun _ => none, -1⟩], []⟩

end Search

section Mlp
variable {W X : Type}

/-- Weights that count the steps, with losses 3, 1, 2, 1, …. -/
def exTrainer : Trainer Nat Nat := ⟨fun _ w => w + 1, fun _ w => if w = 1 then 3 else if w = 3 then 2 else 1⟩

end Mlp

section Carts
variable {T V : Type}

end Carts

end Verif.PredRun
