import Verif.Model.Dsnas
import Mathlib.Tactic.Linarith
import Mathlib.Data.List.Count

/-! Definitions used in the statements of `Verif/Props/Dsnas.lean`. -/

/-! C47: the schedule of DSNAS. -/
namespace Verif.Dsnas

/-- The events of one iteration outside the start of the finetune stage. -/
def body (c : Cfg) (e : Int) : List (Act × Int) :=
  if c.pretrain ≤ e ∧ e < c.finetune then [(.net, e), (.arch, e)] else [(.net, e)]

/-- `n` iterations. -/
def bodies (c : Cfg) (e : Int) (n : Nat) : List (Act × Int) :=
  (List.replicate n (body c e)).flatten

/-- `k` epochs of `n` iterations from epoch `e`, without fixing. -/
def plain (c : Cfg) (n k : Nat) (e : Int) : List (Act × Int) :=
  (List.range k).flatMap fun (i : Nat) => bodies c (e + (i : Int)) n

end Verif.Dsnas
