import Verif.Model.ChannelUnit

/-! Model of `L1MutableChannelUnit`
(`mmrazor/models/mutables/mutable_channel/units/l1_mutable_channel_unit.py`): the channels of a unit are
kept by the mean absolute weight of the layers that produce them. Weights are rational numbers. -/

namespace Verif.L1Norm
open Verif ChannelUnit SeqChannel

/-- A channel of `output_related`: the rows of the flattened weight of its module (`none` if that is
neither a convolution nor a linear layer) and the slice of its output channels. -/
structure Out where
  weight : Option (List (List ℚ))
  start : ℕ
  stop : ℕ
  deriving DecidableEq, Repr

/-- `weight.abs().mean(dim=[1])` of one row, line 66. (Rows of no entries, whose mean is not a number,
are not modelled.) -/
def rowNorm (row : List ℚ) : ℚ := (row.map fun w => |w|).sum / row.length

/-- `_get_l1_norm`, lines 57-67. -/
def l1Norm (rows : List (List ℚ)) (start stop : ℕ) : List ℚ := ((rows.take stop).drop start).map rowNorm

/-- `avg_norm += norm`, line 79: the number zero, or a vector; vectors of different lengths are
broadcast if one of them has a single entry, and refused otherwise. -/
def addNorm (acc : Option (List ℚ)) (l : List ℚ) : Except Err (List ℚ) :=
  match acc with
  | none => .ok l
  | some a =>
    if a.length = l.length then .ok (List.zipWith (· + ·) a l)
    else
      match a, l with
      | [x], l => .ok (l.map (x + ·))
      | a, [y] => .ok (a.map (· + y))
      | _, _ => .error .runtime

/-- The loop of `_get_unit_norm`, lines 72-80: the sum and the number of modules. -/
def sumNorms : List Out → Option (List ℚ) × ℕ → Except Err (Option (List ℚ) × ℕ)
  | [], s => .ok s
  | o :: l, s =>
    match o.weight with
    | none => sumNorms l s
    | some rows =>
      match addNorm s.1 (l1Norm rows o.start o.stop) with
      | .error e => .error e
      | .ok a => sumNorms l (some a, s.2 + 1)

/-- `_get_unit_norm`, lines 69-82: without a module the number zero is divided by zero. -/
def unitNorm (outs : List Out) : Except Err (List ℚ) :=
  match sumNorms outs (none, 0) with
  | .error e => .error e
  | .ok (none, _) => .error .zeroDivision
  | .ok (some a, n) => .ok (a.map (· / n))

/-- `norm.topk(k)[1]`: the indices of the largest `k` values (of equal ones the earlier are taken; torch
leaves that open). -/
def topk (norm : List ℚ) (k : ℕ) : List ℕ :=
  ((sortBy (fun a b : ℚ × Nat => decide (b.1 ≤ a.1)) norm.zipIdx).take k).map (·.2)

/-- `_generate_mask`, lines 49-55: more values than there are, and indices beyond the mask, raise a
RuntimeError. -/
def generateMask (n : ℕ) (norm : List ℚ) (k : Int) : Except Err (List Bool) :=
  if k < 0 ∨ (norm.length : Int) < k then .error .runtime
  else if (topk norm k.toNat).all (· < n) then .ok ((List.range n).map fun i => decide (i ∈ topk norm k.toNat))
  else .error .runtime

/-- `current_choice` setter, lines 41-45: the new mask of the unit (simple_mutable_channel.py lines
36-39). -/
def setChoice (A : Arith) (u : Cfg) (outs : List Out) (c : Choice) : Except Err (List Bool) :=
  match validInt A u c with
  | .error e => .error e
  | .ok k =>
    match unitNorm outs with
    | .error e => .error e
    | .ok norm => generateMask u.n norm k

/-- `current_choice`, lines 33-39. -/
def readChoice (A : Arith) (u : Cfg) (mask : List Bool) : Except Err Choice := toChoice A u (popcount mask)

end Verif.L1Norm
