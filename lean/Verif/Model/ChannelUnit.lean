import Verif.Model.MakeDivisible
import Verif.Model.SeqChannel
import Verif.Float64
import Verif.Sort

/-! Model of the choice handling of
`units/sequential_mutable_channel_unit.py` and
`units/one_shot_mutable_channel_unit.py` (with `oneshot_mutable_channel.py`) in
`mmrazor/models/mutables/mutable_channel/`.

The float operations of the ratio conversions are those of an `Arith`
parameter (`exact` or `ieee`); `make_divisible` is on exact numbers. -/

namespace Verif.ChannelUnit
open Verif SeqChannel MakeDivisible

/-- Constructor arguments of a unit: `num_channels`, `choice_mode == 'ratio'`,
`divisor`, `min_value`, `min_ratio`. -/
structure Cfg where
  n : Nat
  ratioMode : Bool
  divisor : Int
  minValue : Int
  minRatio : ℚ
  deriving DecidableEq, Repr

/-- `_make_divisible`, `sequential_mutable_channel_unit.py` lines 134-138. -/
def mkDiv (u : Cfg) (k : Int) : Except Err Int :=
  makeDivisible k u.divisor (some u.minValue) u.minRatio

/-- `_ratio2num`, lines 147-152. -/
def ratio2num (A : Arith) (u : Cfg) : Choice → Int
  | .num k => k
  | .ratio q => max 1 (pyInt (A.mul u.n q))

/-- `_num2ratio` of an `int`, lines 140-145 (division by zero for width 0). -/
def num2ratio (A : Arith) (u : Cfg) (k : Int) : Except Err ℚ :=
  if u.n = 0 then .error .zeroDivision else .ok (A.div k u.n)

/-- `_get_valid_int_choice`, lines 127-132 (the log message is not modelled). -/
def validInt (A : Arith) (u : Cfg) (c : Choice) : Except Err Int := mkDiv u (ratio2num A u c)

/-- The numeric value of a choice; Python compares `int` and `float` by value. -/
def Choice.value : Choice → ℚ
  | .num k => k
  | .ratio q => q

/-- A channel number as a choice in the mode of the unit. -/
def toChoice (A : Arith) (u : Cfg) (k : Int) : Except Err Choice :=
  if u.ratioMode then (num2ratio A u k).map .ratio else .ok (.num k)

/-- One entry of `_prepare_candidate_choices`,
`one_shot_mutable_channel_unit.py` lines 123-134: the request must have the type
of the mode. -/
def prepareOne (A : Arith) (u : Cfg) (c : Choice) : Except Err Choice :=
  match u.ratioMode, c with
  | false, .num k => (mkDiv u k).map .num
  | true, .ratio q => match mkDiv u (ratio2num A u (.ratio q)) with
    | .error e => .error e
    | .ok k => toChoice A u k
  | _, _ => .error .assertion

/-- `_prepare_candidate_choices`, lines 120-139: rounded, then sorted; duplicates
are kept. -/
def prepareCandidates (A : Arith) (u : Cfg) (cs : List Choice) : Except Err (List Choice) :=
  match cs.mapM (prepareOne A u) with
  | .error e => .error e
  | .ok l => .ok (sortBy (fun a b => decide (Choice.value a ≤ Choice.value b)) l)

/-- `OneShotMutableChannelUnit.current_choice` setter, lines 94-101, followed by
the one of `OneShotMutableChannel`, `oneshot_mutable_channel.py` lines 36-42
(which checks membership again) and of `SquentialMutableChannel`,
`sequential_mutable_channel.py` lines 45-53. Returns the new mask. -/
def setOneShot (A : Arith) (u : Cfg) (cands : List Choice) (c : Choice) : Except Err (List Bool) :=
  if Choice.value c ∈ cands.map Choice.value then
    match validInt A u c with
    | .error e => .error e
    | .ok k => match toChoice A u k with
      | .error e => .error e
      | .ok c' =>
        if Choice.value c' ∈ cands.map Choice.value then
          .ok (prefixMask u.n (ratio2num A u c'))
        else .error .assertion
  else .error .assertion

/-- `SequentialMutableChannelUnit.current_choice` setter, lines 111-115. -/
def setSequential (A : Arith) (u : Cfg) (c : Choice) : Except Err (List Bool) :=
  (validInt A u c).map (prefixMask u.n)

/-- `SequentialMutableChannelUnit.sample_choice`, lines 117-124, when
`random.randint(1, num_channels)` returns `r`. -/
def sampleSequential (A : Arith) (u : Cfg) (r : Int) : Except Err Choice :=
  match mkDiv u r with
  | .error e => .error e
  | .ok k => toChoice A u k

/-- `L1MutableChannelUnit._generate_mask`, `units/l1_mutable_channel_unit.py`
lines 49-55: the `k` channels of largest norm (`topk` raises when `k` exceeds
the number of channels or is negative; of equal norms the earlier channel is
taken, torch leaves that choice open). -/
def l1Mask (norm : List ℚ) (k : Int) : Except Err (List Bool) :=
  if k < 0 ∨ (norm.length : Int) < k then .error .runtime
  else
    let idx := ((sortBy (fun a b : ℚ × Nat => decide (b.1 ≤ a.1)) norm.zipIdx).take k.toNat).map (·.2)
    .ok ((List.range norm.length).map (fun i => decide (i ∈ idx)))

end Verif.ChannelUnit
