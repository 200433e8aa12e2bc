import Verif.Model.Build
import Mathlib.Tactic.Linarith
import Mathlib.Tactic.NormNum
import Mathlib.Tactic.Positivity
import Mathlib.Tactic.FieldSimp

/-! Definitions used in the statements of `Verif/Props/Build.lean`. -/

namespace Verif.Build
open Verif

/-! ### Specification -/

mutual
/-- Whether some module works in place. -/
def Mod.inPlace : Mod → Bool
  | .mk b cs => b == some true || cs.inPlace
/-- Whether some module among the children works in place. -/
def Mods.inPlace : Mods → Bool
  | .nil => false
  | .cons _ m rest => m.inPlace || rest.inPlace
end

mutual
/-- Whether a module inside one with the attribute works in place. -/
def Mod.hidden : Mod → Bool
  | .mk (some _) cs => cs.inPlace
  | .mk none cs => cs.hidden
/-- The same for children. -/
def Mods.hidden : Mods → Bool
  | .nil => false
  | .cons _ m rest => m.hidden || rest.hidden
end

mutual
/-- The module without the values of the attribute. -/
def Mod.shape : Mod → Mod
  | .mk b cs => .mk (b.map fun _ => false) cs.shape
/-- The same for children. -/
def Mods.shape : Mods → Mods
  | .nil => .nil
  | .cons k m rest => .cons k m.shape rest.shape
end

mutual
/-- Whether no module with the attribute contains another one. -/
def Mod.unnested : Mod → Bool
  | .mk (some _) cs => cs.plain
  | .mk none cs => cs.unnested
/-- The same for children. -/
def Mods.unnested : Mods → Bool
  | .nil => true
  | .cons _ m rest => m.unnested && rest.unnested
/-- No module has the attribute. -/
def Mod.plain : Mod → Bool
  | .mk b cs => b.isNone && cs.plain
/-- The same for children. -/
def Mods.plain : Mods → Bool
  | .nil => true
  | .cons _ m rest => m.plain && rest.plain
end

/-- The drop path rates, layer by layer. -/
def rates (layers : List (List Block)) : List (List ℚ) := layers.map fun l => l.map (·.rate)

end Verif.Build
