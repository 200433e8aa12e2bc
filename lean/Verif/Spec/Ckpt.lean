import Verif.Model.Ckpt
import Mathlib.Data.List.Nodup
import Mathlib.Data.List.Infix

/-! Definitions used in the statements of `Verif/Props/Ckpt.lean`. -/

namespace Verif.Ckpt
open Verif

variable {V : Type}

/-- In `a ++ pat ++ t` the pattern occurs only behind `a`. -/
def Once (pat a t : Str) : Prop := ∀ x y, a ++ pat ++ t = x ++ pat ++ y → x = a

/-- The pattern does not occur. -/
def Never (pat s : Str) : Prop := ∀ x y, s ≠ x ++ pat ++ y

/-- The depths of AttentiveNAS. -/
def attentiveDepth : List ℕ := [2, 5, 6, 6, 8, 8, 2]

/-- `architecture.`. -/
def keyArch : Str := "architecture.".toList

/-- `architecture`. -/
def keyArchitecture : Str := "architecture".toList

/-- `architecture.model`. -/
def keyModel : Str := "architecture.model".toList

/-- `.distiller.teacher`. -/
def keyDist : Str := ".distiller.teacher".toList

/-- `architecture.teacher`. -/
def keyTeacher : Str := "architecture.teacher".toList

/-- `qmodels.predict.`. -/
def keyPredict : Str := "qmodels.predict.".toList

/-- `weight_fake_quant`. -/
def keyWfq : Str := "weight_fake_quant".toList

/-- `_val`. -/
def keyVal : Str := "_val".toList

/-- `blocks.`. -/
def keyBlocks : Str := "blocks.".toList

/-- `layer`. -/
def keyLayer : Str := "layer".toList

/-- `model.`. -/
def keyBg : Str := "model.".toList

/-- `module.`. -/
def keyModule : Str := "module.".toList

/-- `architecture.backbone.`. -/
def keyBackbone : Str := "architecture.backbone.".toList

end Verif.Ckpt
