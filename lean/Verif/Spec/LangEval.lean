import Verif.Model.LangEval

/-! Definitions used in the statements of `Verif/Props/LangEval.lean`. -/

namespace Verif.LangEval
open Verif

variable {α : Type}

/-- The `k`-th window of `L` tokens of a text. -/
def window (tokens : List α) (L k : Nat) : List α := (tokens.drop (k * L)).take L

/-- All whole windows of a text. -/
def windows (tokens : List α) (L : Nat) : List (List α) := (List.range (tokens.length / L)).map (window tokens L)

/-- The perplexity of rows of `L` tokens: the exponential of the mean cost of the predicted tokens. -/
noncomputable def perplexity (cost : List α → Nat → ℝ) (L : Nat) (rows : List (List α)) : ℝ :=
  Real.exp ((rows.map (fun row => ((List.range (L - 1)).map (cost row)).sum)).sum / (rows.length * (L - 1) : Nat))

/-- The number of rows of each process. -/
def perRank (len world : Nat) : Nat := (len + world - 1) / world

/-- The indices of the rows that `world` processes evaluate in batches of `size`, with repetitions. -/
def evaluated (len world size : Nat) : List Nat :=
  (List.range world).flatMap (fun r => (List.range (perRank len world / size * size)).map (fun q => (r + q * world) % len))

end Verif.LangEval
