import Verif.Model.Calibration
import Mathlib.Tactic

/-! Definitions used in the statements of `Verif/Props/Calibration.lean`. -/

namespace Verif.Calibration
open Verif

/-- The rows of an input, and what the code counts as its samples. -/
def allRows : Input → List Vec
  | .rows l => l
  | .seqs l => l.flatten
  | .other => []

def counted : Input → Nat
  | .rows _ => 1
  | .seqs l => l.length
  | .other => 0

/-- The total second moment of a list of rows. -/
def moment (l : List Vec) (a b : Nat) : ℚ := (l.map fun x => x a * x b).sum

/-- The constant vector `c`. -/
def const (c : ℚ) : Vec := fun _ => c

/-- The number of samples of the loader. -/
def Data.size : Data → Nat
  | .tensor n => n
  | .dict _ n => n

/-- The response of a weight row to an input row. -/
def response (k : Nat) (w : Nat → ℚ) (x : Vec) : ℚ := ((List.range k).map fun t => w t * x t).sum

/-- The output of a convolution at place `p`: kernel `w` of size `k`, stride, padding, no
dilation. -/
def convAt (x : Int → ℚ) (w : Nat → ℚ) (k stride pad p : Nat) : ℚ :=
  ((List.range k).map fun t => w t * x (p * stride + t - pad)).sum

/-- The quadratic form of a matrix over the first `k` features. -/
def quadratic (k : Nat) (h : Nat → Nat → ℚ) (w : Nat → ℚ) : ℚ :=
  ((List.range k).map fun a => ((List.range k).map fun b => w a * w b * h a b).sum).sum

end Verif.Calibration
