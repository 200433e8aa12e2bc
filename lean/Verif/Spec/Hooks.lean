import Verif.Model.Hooks
import Mathlib.Tactic.Linarith
import Mathlib.Tactic.NormNum
import Mathlib.Tactic.Ring

/-! Definitions used in the statements of `Verif/Props/Hooks.lean`. -/

namespace Verif.Hooks
open Verif

/-! ### Specification -/

/-- The folder of the files: `out_dir` joined with the last part of the working folder, or the
working folder. -/
def Dump.folder (h : Dump) (work : Path) : Path :=
  match h.outDir with
  | none => work
  | some o => if o = work then work else o ++ [work.getLast?.getD ""]

/-- A subnet is due after `x` epochs (iterations) of `last`. -/
def Dump.due (h : Dump) (last x : Nat) : Bool := (0 < h.interval && h.interval ∣ (x : Int)) || (h.saveLast && x == last)

/-- One file for each of the numbers, with subnets drawn one after another. -/
def Dump.files (h : Dump) (dir : Path) (xs : List Nat) (draw : Nat) : List (Path × String × Nat) :=
  (xs.zipIdx draw).map fun p => (dir, h.tmpl p.1, p.2)

/-- FLOPs within five per cent of a target. -/
def Near (target flops : ℚ) : Prop := target * (95 / 100) ≤ flops ∧ flops ≤ target * (105 / 100)

instance (t f : ℚ) : Decidable (Near t f) := by unfold Near; infer_instance

/-- The FLOPs of the subnet in a file, if the expected subnet has `e`. -/
def Content.flops (flops : Nat → ℚ) (e : ℚ) : Content → ℚ
  | .direct k => flops k
  | .expected => e

end Verif.Hooks
