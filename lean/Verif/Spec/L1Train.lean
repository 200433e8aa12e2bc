import Verif.Model.L1Train
import Verif.Spec.L1Norm
import Verif.Spec.ItePrune
import Verif.Spec.ChannelUnit

/-! Plans for iterative pruning with L1 units. -/

namespace Verif.L1Train
open Verif ChannelUnit SeqChannel L1Norm ItePrune

/-- A unit counted in channels, whose width and smallest number are multiples of the divisor. -/
structure Aligned (u : Cfg) : Prop where
  mode : u.ratioMode = false
  divisor : 1 ≤ u.divisor
  ratio0 : 0 ≤ u.minRatio
  ratio1 : u.minRatio ≤ 1
  least : u.divisor ∣ effMin u
  width : u.divisor ∣ (u.n : Int)
  small : effMin u ≤ u.n

/-- A plan for units: a legal number of channels for some of them, starting from all channels. -/
structure Planned (us : List LUnit) (m : Manager) : Prop where
  names : (us.map LUnit.name).Nodup
  keys : (m.target.map (·.1)).Nodup
  times : 0 < m.times
  freq : 0 < m.freq
  target : ∀ e ∈ m.target, ∃ u ∈ us, u.name = e.1 ∧ Aligned u.cfg ∧ (u.cfg.n : Int) < 2 ^ 52 ∧
    lookup m.supernet e.1 = .ok (.int u.cfg.n) ∧ ∃ t : Int, e.2 = .int t ∧ u.cfg.divisor ∣ t ∧ effMin u.cfg ≤ t ∧ t ≤ u.cfg.n

/-- The layers of a unit always have weights for its channels. -/
def Weighted (us : List LUnit) (w : ℕ → String → List Out) : Prop :=
  ∀ it, ∀ u ∈ us, Fits u.cfg.n (w it u.name) ∧ ∃ o ∈ w it u.name, o.weight ≠ none

/-- A mask of a unit after `q` prunings with these layers at the last of them: it keeps the best channels,
as many as planned, rounded to the divisor; that is never less than the target, and the target in the
end. -/
structure Kept (m : Manager) (u : Cfg) (t : Int) (q : ℕ) (outs : List Out) (mask : List Bool) : Prop where
  out : ∃ (k : Int) (c : ℕ), m.value double q (.int t) (.int u.n) = .int k ∧
    MakeDivisible.makeDivisible k u.divisor (some u.minValue) u.minRatio = .ok (c : Int) ∧
    Best u.n c (score outs) mask ∧ t ≤ c ∧ (q = m.times → t = c)

/-- Two units of eight and four channels. -/
def exUnits : List LUnit := [⟨"a", ⟨8, false, 2, 2, 9/10⟩⟩, ⟨"b", ⟨4, false, 1, 1, 9/10⟩⟩]

/-- The first of them is pruned to two channels in three steps, one every two iterations. -/
def exManager : Manager := ⟨[("a", .int 2)], [("a", .int 8), ("b", .int 4)], 2, 3, true⟩

/-- Weights that are trained: those of the even channels grow, those of the last channel shrink. -/
def exWeights (it : ℕ) : String → List Out
  | "a" => [⟨some ((List.range 8).map fun (i : ℕ) => [if i = 7 then 20 - 10 * it else if i % 2 = 0 then (i : ℚ) + 2 * it else i]), 0, 8⟩]
  | _ => [⟨some [[1], [2], [3], [4]], 0, 4⟩]

end Verif.L1Train
