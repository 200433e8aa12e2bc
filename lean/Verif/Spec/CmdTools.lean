import Verif.Model.CmdTools

/-! Definitions used in the statements of `Verif/Props/CmdTools.lean`. -/

namespace Verif.CmdTools

/-- Whether the weights are trained in mixed precision: with a constructor the wrapper of the
architecture decides, otherwise the wrapper itself. -/
def mixed (o : Optim) : Prop :=
  if o.constructor = true then ∃ w, o.architecture = some w ∧ w.type = some "AmpOptimWrapper"
  else o.top.type = some "AmpOptimWrapper"

/-- A wrapper whose type is one `--amp` can deal with. -/
def Plain (w : Wrap) : Prop :=
  w.type = some "OptimWrapper" ∨ w.type = some "AmpOptimWrapper"

/-- Units with choices put in place of their current ones; the last choice of a name counts. -/
def assign {V : Type} (u : Units V) (cs : List (String × V)) : Units V :=
  u.map fun p => (p.1, (cs.reverse.lookup p.1).getD p.2)

/-- Choices that can all be set. -/
def Settable {V : Type} (accept : String → V → Bool) (u : Units V) (cs : List (String × V)) : Prop :=
  ∀ c ∈ cs, c.1 ∈ u.map Prod.fst ∧ accept c.1 c.2 = true

end Verif.CmdTools
