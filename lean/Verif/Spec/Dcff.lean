import Verif.Model.Dcff
import Mathlib.Analysis.SpecialFunctions.Trigonometric.DerivHyp
import Mathlib.Analysis.SpecialFunctions.Log.Deriv
import Mathlib.Data.Fin.VecNotation
import Mathlib.Tactic

/-! Definitions used in the statements of `Verif/Props/Dcff.lean`. -/

namespace Verif.Dcff
open Verif

/-- What is asked of `torch.topk`: as many different positions as wanted, none of which has a smaller
score than a position left out. The order is not specified (`sorted=False`). -/
structure IsTopK {c : ℕ} (s : Fin c → ℝ) (k : ℕ) (ids : List (Fin c)) : Prop where
  nodup : ids.Nodup
  length : ids.length = k
  best : ∀ i ∈ ids, ∀ j, j ∉ ids → s j ≤ s i

/-- A function with that behaviour. -/
def Picks {c : ℕ} (topk : TopK c) : Prop := ∀ s k, k ≤ c → IsTopK s k (topk s k)

/-- The mean Kullback-Leibler divergence of row `i` from all rows. -/
noncomputable def meanKL {c : ℕ} (p : Fin c → Fin c → ℝ) (i : Fin c) : ℝ :=
  (∑ j, ∑ k, p i k * (Real.log (p i k + eps) - Real.log (p j k + eps))) / c

/-- The bias of an output channel. -/
noncomputable def biasAt {n : ℕ} (b : Option (Fin n → ℝ)) (o : Fin n) : ℝ :=
  match b with
  | none => 0
  | some b => b o

/-- The response of an output channel to a patch of the input. -/
noncomputable def Params.respond (P : Params) (o : Fin P.rows) (x : ℕ → ℕ → ℝ) : ℝ :=
  (∑ i, ∑ t, P.weight o i t * x i t) + biasAt P.bias o

/-- The response of an original filter to a patch whose input channels from `n` on are absent. -/
noncomputable def FuseConv.respond (m : FuseConv) (n : ℕ) (f : Fin m.cout) (x : ℕ → ℕ → ℝ) : ℝ :=
  (∑ i : Fin m.wIn, if (i : ℕ) < n then ∑ t, m.weight f i t * x i t else 0) + biasAt m.bias f

/-- Convolutions without groups and depthwise ones. -/
def FuseConv.Plain (m : FuseConv) : Prop := m.groups = 1 ∨ (m.groups = m.inChannels ∧ m.inChannels = m.cout)

/-- How many channels take part: all of them when no mask is registered, and the number of entries that
are on otherwise (a mask that switches everything off is ignored). -/
def taking (mask : Option (List Bool)) (full : ℕ) : ℕ :=
  if ∃ m, mask = some m ∧ true ∈ m then (mask.getD []).countP id else full

/-- Some channel of the input or of the output is switched off. -/
def FuseConv.Pruned (m : FuseConv) : Prop :=
  ¬ (taking m.inMask m.inChannels = m.inChannels ∧ taking m.outMask m.cout = m.cout)

section Mixing
variable {c : ℕ} {ι : Type} [Fintype ι] (w : Fin c → ι → ℝ) {tau : ℝ}

end Mixing

/-- A layer with two one-element filters on two inputs, of which only the first is active. -/
def headLayer (a b : ℝ) : FuseConv where
  cout := 2
  wIn := 2
  kk := 1
  inChannels := 2
  groups := 1
  weight := fun o i _ => if i = 0 then (if o = 0 then a else b) else 0
  bias := none
  inMask := some [true, false]
  outMask := some [true, true]
  choice := none

end Verif.Dcff
