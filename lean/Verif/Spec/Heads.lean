import Verif.Model.Heads

/-! Definitions used in the statements of `Verif/Props/Heads.lean`. -/

namespace Verif.Heads
open Verif

/-- `y` is `x` or lies somewhere inside it. -/
inductive Part : Out → Out → Prop where
  | self (x : Out) : Part x x
  | list {l : List Out} {t y : Out} : t ∈ l → Part t y → Part (.list l) y
  | tuple {l : List Out} {t y : Out} : t ∈ l → Part t y → Part (.tuple l) y
  | dict {l : List (String × Out)} {k : String} {t y : Out} : (k, t) ∈ l → Part t y → Part (.dict l) y

mutual
/-- All tensors of an output from left to right. -/
def tensorsOf : Out → List (Nat × List Int)
  | .tensor n e => [(n, e)]
  | .list l => tensorsOfList l
  | .tuple l => tensorsOfList l
  | .dict l => tensorsOfDict l
  | .other => []
/-- All tensors of a list. -/
def tensorsOfList : List Out → List (Nat × List Int)
  | [] => []
  | t :: r => tensorsOf t ++ tensorsOfList r
/-- All tensors of the values of a dictionary. -/
def tensorsOfDict : List (String × Out) → List (Nat × List Int)
  | [] => []
  | (_, t) :: r => tensorsOf t ++ tensorsOfDict r
end

/-- The layers of a convolution module as functions of values, one after the other. -/
def valueOf {V : Type} (c : ConvModule V) : List Layer → V → V
  | [], x => x
  | .conv :: r, x => valueOf c r (c.conv ((c.padding.getD id) x))
  | .norm :: r, x => valueOf c r ((c.norm.getD id) x)
  | .act :: r, x => valueOf c r ((c.act.getD id) x)

/-- Some layer before the activation makes a new tensor. -/
def CopiedBefore {V : Type} (c : ConvModule V) : Prop :=
  ∃ a b, c.order = a ++ .act :: b ∧ .act ∉ a ∧ (.conv ∈ a ∨ (.norm ∈ a ∧ c.norm.isSome = true))

end Verif.Heads
