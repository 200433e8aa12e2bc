import Verif.Model.DynamicNorm

/-! Model of the calibration of batch norms while candidates are validated, and of the
subnet saved after it: `mmrazor/engine/runner/utils/calibrate_bn_mixin.py`, `_val_candidate`
and `_save_best_fix_subnet` of `mmrazor/engine/runner/evolution_search_loop.py` and
`_evaluate_once` of `mmrazor/engine/runner/subnet_val_loop.py`, for one batch norm of the
network. One process; exact numbers. How the batches are taken from the data is in
`Model/Calibration.lean`. -/

namespace Verif.BnSearch
open Verif DynamicOps DynamicNorm

variable {X : Type}

/-- `AverageMeter`, calibrate_bn_mixin.py lines 12-22, for means and variances together:
`sum` is `none` for the number 0 it starts from. -/
structure Meter where
  sum : Option (List Pair)
  count : Nat
  deriving DecidableEq

/-- Both numbers of a channel times a factor. -/
def scale (k : ℚ) (p : Pair) : Pair := (p.1 * k, p.2 * k)

/-- Both numbers of a channel added. -/
def plus (p q : Pair) : Pair := (p.1 + q.1, p.2 + q.2)

/-- `AverageMeter.update`, lines 24-36. -/
def Meter.update (m : Meter) (v : List Pair) (n : Nat) : Meter :=
  ⟨some (match m.sum with
    | none => v.map (scale n)
    | some s => List.zipWith plus s (v.map (scale n))), m.count + n⟩

/-- The average, line 36; `none` for a layer no sample went through, lines 106-112. -/
def Meter.avg (m : Meter) : Option (List Pair) :=
  if m.count = 0 then none else m.sum.map (·.map (scale (1 / (m.count : ℚ))))

/-- What `record_input_statistics_hook` reads from an input, lines 49-60: mean and unbiased
variance of every channel it has. -/
def record (o : Ops X) (x : List X) : List Pair := x.map fun a => (o.mean a, o.uvar a)

/-- The batches run through the layer, lines 77-99, with the hook after each. Every batch is
given by its number of samples and the data of the channels that reach the layer. -/
def observe (o : Ops X) : BN → Meter → List (Nat × List X) → Except Err (BN × Meter)
  | b, m, [] => .ok (b, m)
  | b, m, (n, x) :: rest =>
    match b.forward o x with
    | (_, .error e) => .error e
    | (b', .ok _) => observe o b' (m.update (record o x) n) rest

/-- `running_mean[:feature_dim].copy_(avg)` and the same for variances, lines 117-135:
without statistics there is nothing to index. -/
def store (avg : List Pair) (b : BN) : Except Err BN :=
  match b.stats with
  | none => .error .type
  | some d =>
    if d.length < avg.length then .error .runtime
    else .ok { b with stats := some (avg ++ d.drop avg.length) }

/-- Storing what a meter has, lines 101-135. -/
def storeMeter (m : Meter) (b : BN) : Except Err BN :=
  match m.avg with
  | none => .ok b
  | some a => store a b

/-- `calibrate_bn_statistics`, lines 43-140. -/
def calibrate (o : Ops X) (b : BN) (batches : List (Nat × List X)) : Except Err BN := do
  let r ← observe o { b with training := true } ⟨none, 0⟩ batches
  storeMeter r.2 r.1

/-- A candidate: the mask it gives the layer and the calibration batches that reach the
layer under it. -/
structure Trial (X : Type) where
  mask : List Bool
  batches : List (Nat × List X)

/-- Calibration if asked for, evolution_search_loop.py lines 345-348. -/
def prepare (o : Ops X) (samples : Int) (b : BN) (t : Trial X) : Except Err BN :=
  if 0 < samples then calibrate o b t.batches else .ok b

/-- `set_choices` and `_val_candidate`, evolution_search_loop.py lines 223-225 and 339-360:
the layer afterwards and the statistics its active channels are evaluated with. -/
def trial (o : Ops X) (samples : Int) (b : BN) (t : Trial X) : Except Err (BN × Option (List Pair)) := do
  let b' ← prepare o samples { b with mask := some t.mask } t
  let s ← sliceOpt b'.outMask b'.stats
  pure ({ b' with training := false }, s)

/-- Candidates validated one after the other; the statistics each was scored with. -/
def search (o : Ops X) (samples : Int) : BN → List (Trial X) → Except Err (BN × List (Option (List Pair)))
  | b, [] => .ok (b, [])
  | b, t :: ts => do
    let r ← trial o samples b t
    let q ← search o samples r.1 ts
    pure (q.1, r.2 :: q.2)

/-- The layer in the model `_save_best_fix_subnet` saves, evolution_search_loop.py lines
311-337: the best choice is set and the model is exported. -/
def saved (b : BN) (best : List Bool) : Except Err BN := BN.toStatic { b with mask := some best }

/-- The batches run through a switchable layer: its own hook and that of the layer of the
width both see every input, so one meter stands for both. -/
def observeSwitch (o : Ops X) : Switch → Meter → List (Nat × List X) → Except Err (Switch × Meter)
  | s, m, [] => .ok (s, m)
  | s, m, (n, x) :: rest =>
    match s.forward o x with
    | (_, .error e) => .error e
    | (s', .ok _) => observeSwitch o s' (m.update (record o x) n) rest

/-- `runner.model.train()`, line 76, for one layer. -/
def toTrain (b : BN) : BN := { b with training := true }

/-- The same for a switchable layer. -/
def trainSwitch (s : Switch) : Switch := ⟨toTrain s.own, s.cands.map fun p => (p.1, toTrain p.2)⟩

/-- Calibration of a switchable layer: it and the layer of the width are both batch norms
with a meter. -/
def calibrateSwitch (o : Ops X) (s : Switch) (batches : List (Nat × List X)) : Except Err Switch := do
  let r ← observeSwitch o (trainSwitch s) ⟨none, 0⟩ batches
  let own ← storeMeter r.2 r.1.own
  let k := count own.outMask
  match r.1.cands.lookup k with
  | none => pure { r.1 with own := own }
  | some c =>
    if k = own.num then pure { r.1 with own := own }
    else do
      let c' ← storeMeter r.2 c
      pure ⟨own, setCand k c' r.1.cands⟩

end Verif.BnSearch
