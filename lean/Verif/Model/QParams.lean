import Verif.Py
import Mathlib.Data.Rat.Floor
import Mathlib.Algebra.Order.Round

/-! Model of the integer ranges of `mmrazor/structures/quantization/qconfig.py` and of the
parameters of `LearnableFakeQuantize`, `mmrazor/models/fake_quants/lsq.py`. -/

namespace Verif.QParams
open Verif

/-- `QSchemeHandler`, qconfig.py lines 30-66: signed (`qint8`) or not (`quint8`), the number
of bits, and `is_symmetric_range`. -/
structure Scheme where
  signed : Bool
  bit : Nat
  symRange : Bool
deriving DecidableEq, Repr

/-- `to_observer_params`, qconfig.py lines 68-92: the smallest and largest integer. For
`bit = 0` Python computes with the fraction `2 ** -1`; only `bit ≥ 1` is modelled. -/
def Scheme.range (s : Scheme) : Int × Int :=
  if s.signed then
    (if s.symRange then -2 ^ (s.bit - 1) + 1 else -2 ^ (s.bit - 1), 2 ^ (s.bit - 1) - 1)
  else (0, 2 ^ s.bit - 1)

/-- The checks of `LearnableFakeQuantize.__init__`, lsq.py lines 88-89 and 107-112: the
range is not a point and fits into 8 bits. -/
def Scheme.accepted (s : Scheme) : Except Err Unit :=
  let r := s.range
  if ¬ r.1 < r.2 then .error .assertion
  else if (if s.signed then r.1 < -128 ∨ 127 < r.2 else r.1 < 0 ∨ 255 < r.2) then .error .assertion
  else .ok ()

/-- A learnable fake quantiser: range, `eps`, the root of the largest integer, whether the
zero point is learned; then its switches and parameters. -/
structure Lsq where
  lo : Int
  hi : Int
  eps : ℚ
  root : ℚ
  zpTrain : Bool
  static : Bool
  fq : Bool
  learn : Bool
  scale : ℚ
  zp : ℚ
deriving DecidableEq, Repr

/-- The four modes, lsq.py lines 132-174. -/
inductive Mode where
  | paramLearning | staticEstimate | val | staticObservation
deriving DecidableEq, Repr

/-- Switching the mode. -/
def Lsq.setMode (q : Lsq) : Mode → Lsq
  | .paramLearning => { q with learn := true, fq := true, static := false }
  | .staticEstimate => { q with learn := false, fq := true, static := true }
  | .val => { q with learn := false, fq := true, static := false }
  | .staticObservation => { q with learn := false, fq := false, static := true }

/-- `LSQObserverMixIn._calculate_scale`, observers/lsq.py lines 33-43; `norm` is the mean
absolute value of the input. -/
def estimate (norm root : ℚ) : ℚ := 2 * norm / root

/-- The part of `forward` that touches the parameters, lsq.py lines 219-240; `norm` and
`zp` come from the observer. -/
def Lsq.forward (q : Lsq) (norm : ℚ) (zp : Int) : Lsq :=
  if q.static then { q with scale := estimate norm q.root, zp := zp } else { q with scale := max q.scale q.eps }

/-- The optimizer: it changes what `requires_grad` (`toggle_qparam_learning`, lsq.py lines
186-193). -/
def Lsq.optim (q : Lsq) (s z : ℚ) : Lsq :=
  if q.learn then { q with scale := s, zp := if q.zpTrain then z else q.zp } else q

/-- `x.clamp(lo, hi)`. -/
def clamp (lo hi x : Int) : Int := max lo (min hi x)

/-- `calculate_qparams`, lsq.py lines 209-217 (rounding to nearest). -/
def Lsq.calculate (q : Lsq) : Lsq × ℚ × Int :=
  ({ q with scale := max q.scale q.eps }, max q.scale q.eps, clamp q.lo q.hi (round q.zp))

/-- Anything that can happen to the parameters. -/
inductive Op where
  | mode (m : Mode)
  | forward (norm : ℚ) (zp : Int)
  | optim (s z : ℚ)
  | calculate
deriving DecidableEq, Repr

/-- One operation. -/
def Lsq.step (q : Lsq) : Op → Lsq
  | .mode m => q.setMode m
  | .forward n z => q.forward n z
  | .optim s z => q.optim s z
  | .calculate => q.calculate.1

/-- A newly built quantiser, lsq.py lines 76-130. -/
def build (s : Scheme) (eps root : ℚ) (zpTrain : Bool) : Lsq :=
  ⟨s.range.1, s.range.2, eps, root, zpTrain, true, true, false, 1, 0⟩

/-- `QConfigHandler.replace_fakequant` with `update_qparams`, qconfig.py lines 162-190, for
one scale and zero point: they are copied; the new zero point is an integer buffer. -/
def replace (q : Lsq) : ℚ × Int := (q.scale, pyInt q.zp)

end Verif.QParams
