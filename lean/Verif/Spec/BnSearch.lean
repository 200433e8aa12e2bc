import Verif.Model.BnSearch
import Verif.Spec.DynamicNorm

/-! Definitions used in the statements of `Verif/Props/BnSearch.lean`. -/

namespace Verif.BnSearch
open Verif DynamicOps DynamicNorm

variable {X : Type}

/-- Number of samples in all batches. -/
def samples (bs : List (Nat × List X)) : Nat := (bs.map (·.1)).sum

/-- The average of `f` over the batches for the channel at position `j`, each batch counted
with its number of samples. -/
def average (f : X → ℚ) (j : Nat) (bs : List (Nat × List X)) : ℚ :=
  (bs.map fun p => (p.1 : ℚ) * p.2[j]?.elim 0 f).sum / samples bs

/-- Average mean and average unbiased variance of the channel at position `j`. -/
def averages (o : Ops X) (j : Nat) (bs : List (Nat × List X)) : Pair := (average o.mean j bs, average o.uvar j bs)

/-- The batches of which only the active channels are passed on. -/
def passed (m : List Bool) (xs : List (Nat × List X)) : List (Nat × List X) :=
  xs.map fun p => (p.1, active m p.2)

/-- Batches with data of `n` channels and at least one sample. -/
def Batches (n : Nat) (xs : List (Nat × List X)) : Prop := (∀ p ∈ xs, p.2.length = n) ∧ 0 < samples xs

/-- The mask of the first `k` of `n` channels. -/
def firstChannels (k n : Nat) : List Bool := List.replicate k true ++ List.replicate (n - k) false

/-- Candidates of a width only, as slimmable units choose: the first channels are active. -/
def slim (n : Nat) (t : Nat × List (Nat × List X)) : Trial X :=
  ⟨firstChannels t.1 n, passed (firstChannels t.1 n) t.2⟩

/-- The last of the candidates in which channel `i` took part. -/
def lastWith (i : Nat) (ts : List (Nat × List (Nat × List X))) : Option (Nat × List (Nat × List X)) :=
  ts.reverse.find? fun t => decide (i < t.1)

/-- A layer of three channels. -/
def bn3 : BN := ⟨3, some [(1, 0), (1, 0), (1, 0)], some [(0, 1), (0, 1), (0, 1)], 0, some (1 / 2), none, false⟩

end Verif.BnSearch
