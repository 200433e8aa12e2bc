import Verif.Model.Sandwich
import Mathlib.Data.Rat.Defs

/-! Model of the validation loops under `mmrazor/engine/runner`: `SubnetValLoop`
(`subnet_val_loop.py`), `SlimmableValLoop` (`slimmable_val_loop.py`),
`SingleTeacherDistillValLoop` and `SelfDistillValLoop` (`distill_val_loop.py`) and
`ItePruneValLoop` (`iteprune_val_loop.py`).

The evaluator, the hooks and `ValLoop.run_iter` belong to mmengine and are modelled from its
documentation: an evaluator collects the results of every sample, `evaluate(size)` computes
metrics of the first `size` of them and forgets them. One process. The calibration of batch
norms is assumed to succeed (see C41 for when it does not), one number stands for the mean and
the variance of a channel. -/

namespace Verif.ValLoops
open Verif Sandwich

abbrev Dict := List (Name × ℚ)

/-- The calls of `runner.call_hook`. -/
inductive Event
  | beforeVal
  | beforeEpoch
  | beforeIter (i : Nat)
  | afterIter (i : Nat)
  | afterEpoch (m : Dict)
  | afterVal
deriving DecidableEq

/-- What a validation is about: the batches of the loader, the number of samples of its
dataset, the subnets that the mutator sets (`sample i` is its `i`-th random one), the masks of
the normalisation layers in a subnet (`none`: the layer is not run), the statistics recorded for
a layer during calibration (one for every channel it receives), the outputs of the model and of
its teacher in training or evaluation mode given the statistics that the layers read, and the
metrics and resources. -/
structure World (σ B R : Type) where
  batches : List B
  size : Nat
  maxNet : σ
  minNet : σ
  sample : Nat → σ
  subnets : List σ
  mask : σ → Nat → Option (List Bool)
  recorded : σ → Nat → List ℚ
  outputs : Bool → σ → (Nat → List ℚ) → B → List R
  teacher : Bool → B → List R
  metrics : List R → Dict
  resources : σ → Dict

/-- The state: the chosen subnet, the running statistics by layer and channel, the mode of the
model, the results held by the evaluator, the number of random subnets drawn, the hooks called,
and the subnet and the statistics in `fix_subnet.json` and `fix_subnet_weight.pth`. -/
structure St (σ R : Type) where
  net : σ
  stats : Nat → Nat → ℚ
  training : Bool
  results : List R
  draws : Nat
  events : List Event
  file : Option (σ × (Nat → Nat → ℚ))

variable {σ B R : Type}

/-- The entries of the active channels (`running_mean[mask]`, dynamic_norm.py). -/
def picked (m : List Bool) (f : Nat → ℚ) : List ℚ := (m.zipIdx.filter (·.1)).map fun p => f p.2

/-- The statistics that the layers of a subnet read. -/
def World.read (w : World σ B R) (s : σ) (stats : Nat → Nat → ℚ) (l : Nat) : List ℚ :=
  match w.mask s l with
  | none => []
  | some m => picked m (stats l)

/-- `running_mean[:feature_dim].copy_(calibrated_bn_mean)`, calibrate_bn_mixin.py lines 101-112
and 132-133. -/
def World.calibrate (w : World σ B R) (s : σ) (stats : Nat → Nat → ℚ) (l c : Nat) : ℚ :=
  match w.mask s l with
  | none => stats l c
  | some _ => (w.recorded s l)[c]?.getD (stats l c)

def St.call (st : St σ R) (e : Event) : St σ R := { st with events := st.events ++ [e] }

/-- `run_iter` with the outputs of a batch. -/
def St.iter (st : St σ R) (out : List R) (i : Nat) : St σ R :=
  { st with results := st.results ++ out, events := st.events ++ [.beforeIter i, .afterIter i] }

/-- The loop over the batches, subnet_val_loop.py lines 89-90. -/
def St.loop (st : St σ R) (w : World σ B R) : St σ R :=
  w.batches.zipIdx.foldl
    (fun st p => st.iter (w.outputs st.training st.net (w.read st.net st.stats) p.1) p.2) st

/-- The loop over the batches with the teacher, distill_val_loop.py lines 57-58. -/
def St.loopTeacher (st : St σ R) (w : World σ B R) : St σ R :=
  w.batches.zipIdx.foldl (fun st p => st.iter (w.teacher st.training p.1) p.2) st

/-- `evaluator.evaluate(len(dataset))`. -/
def St.evaluate (st : St σ R) (w : World σ B R) : Dict × St σ R :=
  (w.metrics (st.results.take w.size), { st with results := [] })

/-- `_evaluate_once`, subnet_val_loop.py lines 84-96. -/
def St.evaluateOnce (st : St σ R) (w : World σ B R) : Dict × St σ R :=
  let st := { st with stats := w.calibrate st.net st.stats, training := true }
  let st := { st with training := false }
  let st := st.loop w
  let (m, st) := st.evaluate w
  (update m (w.resources st.net), st)

/-- One turn of the loop over `sample_kinds`, lines 66-79; other kinds are passed over. -/
def kindStep (w : World σ B R) (p : Dict × St σ R) (k : Kind) : Dict × St σ R :=
  match k with
  | .max =>
    let (m, st) := { p.2 with net := w.maxNet }.evaluateOnce w
    (update p.1 (addPrefix m k.prefix), st)
  | .min =>
    let (m, st) := { p.2 with net := w.minNet }.evaluateOnce w
    (update p.1 (addPrefix m k.prefix), st)
  | .random _ =>
    let (m, st) := { p.2 with net := w.sample p.2.draws, draws := p.2.draws + 1 }.evaluateOnce w
    (update p.1 (addPrefix m k.prefix), st)
  | .subnet _ => p

/-- `SubnetValLoop.run`, lines 55-82, with its return value. `kinds`: the attribute
`sample_kinds` of the algorithm, if it has one. -/
def subnetRun (w : World σ B R) (fixed : Bool) (kinds : Option (List Kind)) (st : St σ R) : Option Dict × St σ R :=
  let st := (st.call .beforeVal).call .beforeEpoch
  let p : Dict × St σ R :=
    if fixed then
      let (m, st) := st.evaluateOnce w
      (update [] (addPrefix m "fix_subnet".toList), st)
    else match kinds with
      | some ks => ks.foldl (kindStep w) ([], st)
      | none => ([], st)
  (none, (p.2.call (.afterEpoch p.1)).call .afterVal)

/-- One turn of the loop over the subnets, slimmable_val_loop.py lines 46-54. -/
def slimmableStep (w : World σ B R) (p : Dict × St σ R) (q : σ × Nat) : Dict × St σ R :=
  let st := p.2.call .beforeEpoch
  let st := { st with training := false }
  let st := { st with net := q.1 }
  let (m, st) := (st.loop w).evaluate w
  (update p.1 (addPrefix m (Kind.subnet q.2).prefix), st)

/-- `SlimmableValLoop.run`, lines 41-58. -/
def slimmableRun (w : World σ B R) (st : St σ R) : Option Dict × St σ R :=
  let st := st.call .beforeVal
  let p := w.subnets.zipIdx.foldl (slimmableStep w) ([], st)
  (none, (p.2.call (.afterEpoch p.1)).call .afterVal)

/-- `SingleTeacherDistillValLoop.run`, distill_val_loop.py lines 46-66. -/
def teacherRun (w : World σ B R) (st : St σ R) : Option Dict × St σ R :=
  let st := (st.call .beforeVal).call .beforeEpoch
  let st := { st with training := false }
  let (m, st) := (st.loop w).evaluate w
  let st := st.call .beforeEpoch
  let (t, st) := (st.loopTeacher w).evaluate w
  let m := t.foldl (fun m x => put m ("teacher.".toList ++ x.1) x.2) m
  (none, (st.call (.afterEpoch m)).call .afterVal)

/-- `SelfDistillValLoop.run`, distill_val_loop.py lines 111-127. -/
def selfRun (w : World σ B R) (st : St σ R) : Option Dict × St σ R :=
  let st := (st.call .beforeVal).call .beforeEpoch
  let st := { st with training := false }
  let (m, st) := (st.loop w).evaluate w
  let m := m.foldl (fun d x => put d ("student.".toList ++ x.1) x.2) []
  (none, (st.call (.afterEpoch m)).call .afterVal)

/-- `ItePruneValLoop.run` and `_save_fix_subnet`, iteprune_val_loop.py lines 25-58; the export
is C10. -/
def itePruneRun (w : World σ B R) (st : St σ R) : Option Dict × St σ R :=
  let st := (st.call .beforeVal).call .beforeEpoch
  let st := { st with training := false }
  let (m, st) := (st.loop w).evaluate w
  let st := { st with file := some (st.net, st.stats) }
  (some m, (st.call (.afterEpoch m)).call .afterVal)

end Verif.ValLoops
