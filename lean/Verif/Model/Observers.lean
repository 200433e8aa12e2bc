import Verif.Model.Deploy

/-! Model of `mmrazor/models/observers/lsq.py` with the min-max observers of torch it is built on
(`MinMaxObserver`, `PerChannelMinMaxObserver`), which `mmrazor/models/observers/torch_observers.py` also registers.
Numbers are exact rationals; the ranges are always given (`quant_min`, `quant_max`, fake_quants/lsq.py lines 96-97). -/

namespace Verif.Observers
open Verif Deploy GptqQuantizer

/-- What an observer has recorded: `min_val`, `max_val` (nothing yet: infinities) and `tensor_norm`. -/
structure Obs where
  range : Option (ℚ × ℚ)
  norm : Option ℚ
deriving DecidableEq

/-- A new observer, lines 30-31 and 52-54. -/
def new : Obs := ⟨none, none⟩

/-- `x.abs().mean()`. -/
def absMean (x : List ℚ) : ℚ := (x.map fun v => |v|).sum / x.length

/-- `torch.aminmax`. -/
def aminmax (v : ℚ) (vs : List ℚ) : ℚ × ℚ := (vs.foldl min v, vs.foldl max v)

/-- `torch.min(min_val_cur, self.min_val)` and `torch.max(max_val_cur, self.max_val)`, lines 64-65. -/
def widen (old : Option (ℚ × ℚ)) (cur : ℚ × ℚ) : ℚ × ℚ :=
  match old with
  | none => cur
  | some r => (min cur.1 r.1, max cur.2 r.2)

/-- `LSQObserver.forward`, lines 56-68: an empty batch is ignored. -/
def observe (o : Obs) : List ℚ → Obs
  | [] => o
  | v :: vs => ⟨some (widen o.range (aminmax v vs)), some (absMean (v :: vs))⟩

/-- All batches one after the other. -/
def observeAll (o : Obs) (bs : List (List ℚ)) : Obs := bs.foldl observe o

/-- `MinMaxObserver.calculate_qparams` (torch, `_calculate_qparams`): without a recorded range a warning, scale 1 and
zero point 0. -/
def minMaxParams (c : Cfg) (o : Obs) : ℚ × ℤ :=
  match o.range with
  | none => (1, 0)
  | some (mn, mx) =>
    let neg := min mn 0
    let pos := max mx 0
    if c.symmetric then
      (max (max (-neg) pos / (((c.hi - c.lo : ℤ) : ℚ) / 2)) c.eps, if c.scheme.signed then 0 else (c.lo + c.hi) / 2)
    else
      let s := max ((pos - neg) / ((c.hi - c.lo : ℤ) : ℚ)) c.eps
      (s, min (max (c.lo - rhe (neg / s)) c.lo) c.hi)

/-- `_calculate_scale`, lines 34-44, in a single process; `root` stands for `math.sqrt(quant_max)`. Without a recorded
norm `2 * None` is a TypeError. -/
def lsqScale (root : ℚ) (o : Obs) : Except Err ℚ :=
  match o.norm with
  | none => .error .type
  | some n => .ok (2 * n / root)

/-- `LSQObserver.calculate_qparams`, lines 70-75: the zero point of the min-max observer with the scale of LSQ. -/
def lsqParams (c : Cfg) (root : ℚ) (o : Obs) : Except Err (ℚ × ℤ) :=
  match lsqScale root o with
  | .error e => .error e
  | .ok s => .ok (s, (minMaxParams c o).2)

/-- `sync_tensor`, lines 18-23, on all ranks: every scale is divided by the number of ranks and they are summed. -/
def syncScales (scales : List ℚ) : List ℚ := scales.map fun (_ : ℚ) => (scales.map fun (s : ℚ) => s / (scales.length : ℚ)).sum

/-- `LSQObserver.calculate_qparams` on all ranks of a distributed run on GPUs. -/
def lsqParamsAll (c : Cfg) (root : ℚ) (os : List Obs) : Except Err (List (ℚ × ℤ)) :=
  match os.mapM (lsqScale root) with
  | .error e => .error e
  | .ok scales => .ok ((syncScales scales).zip (os.map fun o => (minMaxParams c o).2))

/-- `LSQPerChannelObserver.forward`, lines 90-122, after the permutation (lines 98-107): one observer per channel. An
empty batch is ignored; a batch with another number of channels than before does not fit (torch would repeat a single
channel; this is not modelled). -/
def observeChannels (os : List Obs) (x : List (List ℚ)) : Except Err (List Obs) :=
  if x.all (·.isEmpty) then .ok os
  else if os = [] then .ok (x.map (observe new))
  else if os.length = x.length then .ok (List.zipWith observe os x)
  else .error .runtime

/-- All batches one after the other. -/
def channelsAll : List (List (List ℚ)) → List Obs → Except Err (List Obs)
  | [], os => .ok os
  | x :: rest, os =>
    match observeChannels os x with
    | .error e => .error e
    | .ok os' => channelsAll rest os'

end Verif.Observers
