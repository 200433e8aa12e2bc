import Verif.Model.Analyzer
import Mathlib.Tactic.Linarith
import Mathlib.Tactic.NormNum
import Mathlib.Tactic.Positivity
import Mathlib.Data.Rat.Floor

/-! Definitions used in the statements of `Verif/Props/Analyzer.lean`. -/

namespace Verif.Analyzer
open Verif

mutual
/-- An output made of tensors, lists and dictionaries only. -/
def Supported : Out → Prop
  | .tensor _ => True
  | .seq l => SupportedL l
  | .dict l => SupportedD l
  | .other => False
def SupportedL : List Out → Prop
  | [] => True
  | o :: l => Supported o ∧ SupportedL l
def SupportedD : List (String × Out) → Prop
  | [] => True
  | (_, o) :: l => Supported o ∧ SupportedD l
end

mutual
/-- Two outputs of the same structure, whose corresponding tensors have as many dimensions. -/
def SameForm : Out → Out → Prop
  | .tensor a, .tensor b => a.length = b.length
  | .seq a, .seq b => SameFormL a b
  | .dict a, .dict b => SameFormD a b
  | _, _ => False
def SameFormL : List Out → List Out → Prop
  | [], [] => True
  | a :: l, b :: r => SameForm a b ∧ SameFormL l r
  | _, _ => False
def SameFormD : List (String × Out) → List (String × Out) → Prop
  | [], [] => True
  | (k, a) :: l, (j, b) :: r => k = j ∧ SameForm a b ∧ SameFormD l r
  | _, _ => False
end

/-- The pruned model runs and its output has the form of the template. -/
def Works {U : Type} (run : List U → Except Err Out) (template : Out) (l : List U) : Prop :=
  ∃ o, run l = .ok o ∧ Supported template ∧ Supported o ∧ SameForm template o

end Verif.Analyzer
