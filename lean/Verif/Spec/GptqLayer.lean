import Verif.Model.GptqLayer
import Verif.Props.GptqQuantizer
import Verif.Lemmas.Compensate
import Mathlib.Data.List.GetD
import Mathlib.Tactic

/-! Definitions used in the statements of `Verif/Props/GptqLayer.lean`. -/

/-! C54: quantising a layer with GPTQ. -/
namespace Verif.GptqLayer
open Verif Verif.GptqQuantizer

/-- Rounding column by column: when column `k` has been rounded to `q`, the later columns are
corrected by the error `(w - q) / U[k, k] * U[k, ·]`. These are the weights before column `k` is
rounded. -/
def comp (u w q : Mat) : Nat → Mat
  | 0 => w
  | k + 1 => fun r j => comp u w q k r j - (comp u w q k r k - q r k) / u k k * u k j

/-- The weights in the order of treatment, the columns of dead inputs set to zero. -/
def ordered (c : Cfg) (w : Mat) : Mat := fun r j => if c.dead (c.perm.getD j 0) = true then 0 else w r (c.perm.getD j 0)

/-- The new weights in the order of treatment. -/
def treated (c : Cfg) (w : Mat) : Mat := fun r j => w r (c.perm.getD j 0)

/-- Usable settings: a positive number of bits, a search grid as the options of the quantiser
describe it, and usable parameters if the quantiser has some already. -/
def Usable (c : Cfg) : Prop :=
  (∃ bits, 0 < bits ∧ c.maxq = maxqOf bits false) ∧ (∀ m, c.mse = some m → m.steps ≤ m.grid) ∧ ∀ p, c.init = some p → ∀ r, Good (p r)

/-- One row, four columns, the last of a dead input. -/
def small (blocksize : Nat) (groupsize : Option Nat) (cuda : Bool) : Cfg :=
  ⟨1, 4, blocksize, groupsize, 3, false, none, true, none, fun i j => if i = j then 1 else if i < j then 1 / 2 else 0,
    fun j => j == 3, false, List.range 4, cuda⟩

/-- A row with a given weight for the dead input. -/
def row4 (d : ℚ) : Mat := fun _ j => [1, 1 / 2, 1 / 2, d].getD j 0

/-- The new row. -/
def newRow (c : Cfg) (w : Mat) : List ℚ := (List.range c.cols).map ((quant c w).1 0)

end Verif.GptqLayer
