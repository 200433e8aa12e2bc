import Verif.Model.DynamicNorm
import Verif.Lemmas.DynamicOps
import Mathlib.Tactic

/-! Definitions used in the statements of `Verif/Props/DynamicNorm.lean`. -/

namespace Verif.DynamicNorm
open Verif DynamicOps

variable {X : Type}

/-- A layer whose lists have the right sizes. -/
structure BN.WF (b : BN) : Prop where
  affine : ∀ ps, b.affine = some ps → ps.length = b.num
  stats : ∀ ps, b.stats = some ps → ps.length = b.num
  mask : ∀ m, b.mask = some m → m.length = b.num

/-- The ordinary layer of the active channels only. -/
def BN.sliced (b : BN) : BN :=
  ⟨count b.outMask, b.affine.map (active b.outMask), b.stats.map (active b.outMask), b.tracked, b.momentum, none, b.training⟩

/-- One training step on all channels of which only the active ones see data. -/
def stepAll (o : Ops X) (f : ℚ) (m : List Bool) (d : List Pair) (x : List X) : List Pair :=
  List.zipWith (fun (p : Bool × Pair) a => if p.1 then update o f p.2 a else p.2) (m.zip d) x

/-- Setting the mask of a registered layer (as the mutable it was registered with does). -/
def BN.setMask (b : BN) (m : List Bool) : BN := { b with mask := some m }

/-- Training with changing masks; every entry gives the mask and the data of all channels,
of which the active ones are passed. -/
def train (o : Ops X) : BN → List (List Bool × List X) → BN
  | b, [] => b
  | b, (m, x) :: r => train o ((b.setMask m).forward o (active m x)).1 r

/-- The statistics of one channel after a history, from the steps in which it was active
only. -/
def channelHistory (o : Ops X) (f : ℚ) (i : Nat) : List (List Bool × List X) → Pair → Pair
  | [], s => s
  | (m, x) :: r, s => channelHistory o f i r
      (match m[i]?, x[i]? with
        | some true, some a => update o f s a
        | _, _ => s)

/-- Numbers as channel data. -/
def numOps : Ops ℚ := ⟨id, fun _ => 0, fun _ => 1, fun m v p x => (x - m) * (p.getD (1, 0)).1 + v⟩

/-- Two channels with cumulative averages. -/
def bn2 (mom : Option ℚ) : BN := ⟨2, some [(1, 0), (1, 0)], some [(0, 1), (0, 1)], 0, mom, none, true⟩

end Verif.DynamicNorm
