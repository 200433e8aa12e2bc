import Verif.Py

/-! Model of `sequential_mutable_channel.py`, `simple_mutable_channel.py` and
`base_mutable_channel.py` in `mmrazor/models/mutables/mutable_channel/`. Masks
are stored as float tensors of zeros and ones in the code; here `List Bool`. -/

namespace Verif.SeqChannel
open Verif

/-- Number of active channels, `(mask == 1).sum().item()`. -/
def popcount (mask : List Bool) : Nat := mask.countP id

/-- The tensor after `mask.fill_(0.0); mask[0:k] = 1.0` for `n` channels,
`sequential_mutable_channel.py` lines 52-53. The end of a Python slice is
clamped to `n`; a negative end counts from the back. -/
def prefixMask (n : Nat) (k : Int) : List Bool :=
  let stop : Nat := if k < 0 then ((n : Int) + k).toNat else min k.toNat n
  List.replicate stop true ++ List.replicate (n - stop) false

/-- A choice: Python `int` or `float`. -/
inductive Choice where
  | num (k : Int)
  | ratio (q : ℚ)
  deriving DecidableEq, Repr

/-- State of a `SquentialMutableChannel`: `num_channels`, `mask`,
`choice_mode == 'ratio'`, `_is_fixed`. -/
structure Seq where
  n : Nat
  mask : List Bool
  ratioMode : Bool
  fixed : Bool
  deriving DecidableEq, Repr

/-- `__init__`, `sequential_mutable_channel.py` lines 25-29 and
`simple_mutable_channel.py` lines 21-26: a mask of ones. -/
def init (n : Nat) (ratioMode : Bool) : Seq := ⟨n, List.replicate n true, ratioMode, false⟩

/-- `_ratio2num`, lines 135-140. -/
def ratio2num (n : Nat) (q : ℚ) : Int := max 1 (pyInt (n * q))

/-- The `current_choice` setter, lines 45-53. -/
def setChoice (s : Seq) : Choice → Seq
  | .num k => { s with mask := prefixMask s.n k }
  | .ratio q => { s with mask := prefixMask s.n (ratio2num s.n q) }

/-- The `current_choice` getter, lines 36-43 with `_num2ratio`, lines 128-133:
the division by `num_channels` raises for a width of zero. -/
def getChoice (s : Seq) : Except Err Choice :=
  if s.ratioMode then
    if s.n = 0 then .error .zeroDivision
    else .ok (.ratio ((popcount s.mask : ℚ) / s.n))
  else .ok (.num (popcount s.mask))

/-- `SquentialMutableChannel.fix_chosen`, lines 62-68; `none` is the default
argument `...`. Returns the state left behind and the exception, if any. -/
def fixChosen (s : Seq) (chosen : Option Choice) : Seq × Option Err :=
  let go (c : Choice) : Seq × Option Err :=
    if s.fixed then (s, some .assertion)
    else ({ setChoice s c with fixed := true }, none)
  match chosen with
  | some c => go c
  | none => match getChoice s with
    | .error e => (s, some e)
    | .ok c => go c

/-- Calls on a sequential channel. -/
inductive Op where
  | set (c : Choice)
  | fix (c : Option Choice)

/-- One call. -/
def step (s : Seq) : Op → Seq
  | .set c => setChoice s c
  | .fix c => (fixChosen s c).1

/-- State after a history of calls. -/
def run (s : Seq) (ops : List Op) : Seq := ops.foldl step s

/-- A `SimpleMutableChannel`: the choice is the mask itself. -/
structure Simple where
  mask : List Bool
  fixed : Bool
  deriving DecidableEq, Repr

/-- `BaseMutableChannel.fix_chosen`, `base_mutable_channel.py` lines 51-61, with
the setter of `simple_mutable_channel.py` lines 35-38: the choice is stored
before the flag is checked. -/
def simpleFix (s : Simple) (chosen : Option (List Bool)) : Simple × Option Err :=
  let s' := match chosen with
    | some m => { s with mask := m }
    | none => s
  if s'.fixed then (s', some .attribute) else ({ s' with fixed := true }, none)

end Verif.SeqChannel
