import Verif.Model.DynamicOps
import Mathlib.Algebra.Order.Field.Rat

/-! Model of dynamic batch normalisation:
`mmrazor/models/architectures/dynamic_ops/bricks/dynamic_norm.py` (`_DynamicBatchNorm`,
`SwitchableBatchNorm2d`) and `DynamicBatchNormMixin` of `mixins/dynamic_mixins.py`.

`X` is the data of one channel over the batch. Numbers are exact rationals. -/

namespace Verif.DynamicNorm
open Verif DynamicOps

/-- What `F.batch_norm` computes from one channel: its mean, its biased and unbiased
variance, and the normalised data for a mean, a variance and optionally a weight and a
bias. -/
structure Ops (X : Type) where
  mean : X → ℚ
  bvar : X → ℚ
  uvar : X → ℚ
  norm : ℚ → ℚ → Option (ℚ × ℚ) → X → X

/-- Weight and bias, or mean and variance, of one channel. -/
abbrev Pair := ℚ × ℚ

/-- `_DynamicBatchNorm`: `affine` holds weight and bias of every channel if the layer is
affine, `stats` the running mean and variance if they are tracked. -/
structure BN where
  num : Nat
  affine : Option (List Pair)
  stats : Option (List Pair)
  tracked : Nat
  momentum : Option ℚ
  mask : Option (List Bool)
  training : Bool
  deriving DecidableEq

/-- `_register_mutable_num_features`, dynamic_mixins.py lines 175-200. -/
def BN.register (b : BN) (m : List Bool) : Except Err BN :=
  if b.affine = none ∧ b.stats = none then .error .runtime
  else if m.length ≠ b.num then .error .value
  else .ok { b with mask := some m }

/-- `_get_num_features_mask`, dynamic_mixins.py lines 202-217 (`None` only if there is
nothing to slice). -/
def BN.outMask (b : BN) : List Bool := b.mask.getD (List.replicate b.num true)

/-- Slicing one kind of parameters, if the layer has them. -/
def sliceOpt (m : List Bool) : Option (List Pair) → Except Err (Option (List Pair))
  | none => .ok none
  | some ps => do
    let q ← maskIndex m ps
    pure (some q)

/-- New running statistics of one channel (PyTorch). -/
def update {X : Type} (o : Ops X) (f : ℚ) (s : Pair) (x : X) : Pair :=
  ((1 - f) * s.1 + f * o.mean x, (1 - f) * s.2 + f * o.uvar x)

/-- Weight and bias of each channel, if any. -/
def perChannel (n : Nat) : Option (List Pair) → List (Option Pair)
  | none => List.replicate n none
  | some ps => ps.map some

/-- `F.batch_norm` (PyTorch): output and new running statistics. -/
def batchNorm {X : Type} (o : Ops X) (x : List X) (stats affine : Option (List Pair)) (training : Bool) (f : ℚ) :
    Except Err (List X × Option (List Pair)) :=
  let wb := perChannel x.length affine
  if wb.length ≠ x.length then .error .runtime
  else if training then
    match stats with
    | none => .ok (List.zipWith (fun p a => o.norm (o.mean a) (o.bvar a) p a) wb x, none)
    | some ss =>
      if ss.length ≠ x.length then .error .runtime
      else .ok (List.zipWith (fun p a => o.norm (o.mean a) (o.bvar a) p a) wb x, some (List.zipWith (update o f) ss x))
  else
    match stats with
    | none => .error .runtime
    | some ss =>
      if ss.length ≠ x.length then .error .runtime
      else .ok (List.zipWith (fun (ps : Pair × Option Pair) a => o.norm ps.1.1 ps.1.2 ps.2 a) (ss.zip wb) x, some ss)

/-- `masked_scatter_` (PyTorch): the next value of the source at every set position. -/
def scatter : List Bool → List Pair → List Pair → List Pair
  | true :: m, _ :: d, s :: ss => s :: scatter m d ss
  | false :: m, x :: d, ss => x :: scatter m d ss
  | _, d, _ => d

/-- The averaging factor and the new counter, dynamic_norm.py lines 62-78. -/
def BN.factor (b : BN) : ℚ × Nat :=
  if b.training ∧ b.stats ≠ none then
    match b.momentum with
    | none => (1 / ((b.tracked + 1 : Nat) : ℚ), b.tracked + 1)
    | some f => (f, b.tracked + 1)
  else (b.momentum.getD 0, b.tracked)

/-- The end of `forward`, dynamic_norm.py lines 89-97: in training the changed statistics
are copied back. -/
def BN.finish {X : Type} (b : BN) : Except Err (List X × Option (List Pair)) → BN × Except Err (List X)
  | .error e => (b, .error e)
  | .ok (y, st') =>
    match b.training, b.stats, st' with
    | true, some d, some s => ({ b with stats := some (scatter b.outMask d s) }, .ok y)
    | _, _, _ => (b, .ok y)

/-- `forward`, dynamic_norm.py lines 58-97. The counter is increased before anything can
fail. -/
def BN.forward {X : Type} (o : Ops X) (b : BN) (x : List X) : BN × Except Err (List X) :=
  BN.finish { b with tracked := b.factor.2 } (do
    let st ← sliceOpt b.outMask b.stats
    let af ← sliceOpt b.outMask b.affine
    batchNorm o x st af (b.training || b.stats.isNone) b.factor.1)

/-- `to_static_op`, dynamic_mixins.py lines 246-284: parameters and statistics are copied,
the counter of a new layer is 0. -/
def BN.toStatic (b : BN) : Except Err BN := do
  let st ← sliceOpt b.outMask b.stats
  let af ← sliceOpt b.outMask b.affine
  pure ⟨match b.mask with | some m => count m | none => b.num, af, st, 0, b.momentum, none, true⟩

/-- `SwitchableBatchNorm2d`: the layer and one further layer for each width. -/
structure Switch where
  own : BN
  cands : List (Nat × BN)

/-- `init_candidates`, dynamic_norm.py lines 160-168 and 195-199. -/
def Switch.init (s : Switch) (fresh : Nat → BN) (cands : List Nat) : Except Err Switch :=
  if s.cands ≠ [] then .error .assertion
  else if ∃ v ∈ cands, v = 0 ∨ s.own.num < v then .error .assertion
  else .ok { s with cands := (cands.dedup).map fun v => (v, fresh v) }

/-- Changing the layer of one width. -/
def setCand (k : Nat) (b : BN) : List (Nat × BN) → List (Nat × BN)
  | [] => []
  | (j, c) :: cs => if j = k then (j, b) :: cs else (j, c) :: setCand k b cs

/-- `forward`, dynamic_norm.py lines 170-177. -/
def Switch.forward {X : Type} (o : Ops X) (s : Switch) (x : List X) : Switch × Except Err (List X) :=
  let k := count s.own.outMask
  if k = s.own.num then
    let r := s.own.forward o x
    ({ s with own := r.1 }, r.2)
  else
    match s.cands.lookup k with
    | none => (s, .error .assertion)
    | some c =>
      let r := c.forward o x
      ({ s with cands := setCand k r.1 s.cands }, r.2)

/-- `to_static_op`, dynamic_norm.py lines 179-186. -/
def Switch.toStatic (s : Switch) : Except Err BN :=
  let k := count s.own.outMask
  if k = s.own.num then s.own.toStatic
  else
    match s.cands.lookup k with
    | none => .error .assertion
    | some c => .ok c

end Verif.DynamicNorm
