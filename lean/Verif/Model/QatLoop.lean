import Verif.Py
import Mathlib.Data.Rat.Floor

/-! Model of `mmrazor/engine/runner/quantization_loops.py` and of the switches of the fake
quantisers (torch `FakeQuantize`, `mmrazor/models/fake_quants/lsq.py`). One fake quantiser
stands for all (the switches are applied to every module); its parameters are one rational
scale. -/

namespace Verif.QatLoop
open Verif

/-- The switches: fake quantisation, observer, parameter learning, frozen batch-norm
statistics. -/
structure Flags where
  fq : Bool
  obs : Bool
  learn : Bool
  frozen : Bool
deriving DecidableEq, Repr

/-- Which loop: `QATEpochBasedLoop` or `LSQEpochBasedLoop`. -/
inductive Kind where
  | qat | lsq
deriving DecidableEq, Repr

/-- The settings of the loop, and what the model does with a batch: `observe` is the
observer of torch, `estimate` the LSQ observer, `learn` the optimizer step, `eps` the
smallest scale. -/
structure Cfg where
  kind : Kind
  observerOff : Int
  bnOff : Int
  observe : ℚ → ℚ → ℚ
  estimate : ℚ → ℚ
  learn : ℚ → ℚ → ℚ
  eps : ℚ

/-- What happened, with the switches at that time. -/
inductive Ev where
  | train (epoch idx : Nat) (f : Flags)
  | save (epoch : Nat) (f : Flags)
  | val (epoch idx : Nat) (f : Flags)
deriving DecidableEq, Repr

/-- The state: switches, `is_first_batch` and the scale. -/
structure St where
  f : Flags
  first : Bool
  q : ℚ
deriving DecidableEq, Repr

/-- The configured point has come: `begin > 0 and _epoch + 1 >= begin`, lines 79-80, 85-86. -/
def reached (b : Int) (epoch : Nat) : Bool := decide (0 < b ∧ b ≤ epoch + 1)

/-- `enable_param_learning`, lsq.py lines 132-141. -/
def Flags.paramLearning (f : Flags) : Flags := { f with learn := true, fq := true, obs := false }
/-- `enable_static_estimate`, lsq.py lines 143-152. -/
def Flags.staticEstimate (f : Flags) : Flags := { f with learn := false, fq := true, obs := true }
/-- `enable_val`, lsq.py lines 154-163. -/
def Flags.val (f : Flags) : Flags := { f with learn := false, fq := true, obs := false }

/-- `prepare_for_run_epoch`, lines 72-87 and 183-191. `freeze_bn_stats` stays in force under
`model.train()`. -/
def prepareTrain (c : Cfg) (epoch : Nat) (f : Flags) : Flags :=
  match c.kind with
  | .qat => ⟨true, !reached c.observerOff epoch, f.learn, f.frozen || reached c.bnOff epoch⟩
  | .lsq => { f.paramLearning with frozen := f.frozen || reached c.bnOff epoch }

/-- `prepare_for_val`, lines 89-93 and 193-196. -/
def prepareVal (c : Cfg) (f : Flags) : Flags :=
  match c.kind with
  | .qat => { f with fq := true, obs := false }
  | .lsq => f.val

/-- The effect of a forward pass on the scale: torch `FakeQuantize.forward` and
`LearnableFakeQuantize.forward`, lsq.py lines 219-240. -/
def forward (c : Cfg) (f : Flags) (x q : ℚ) : ℚ :=
  match c.kind with
  | .qat => if f.obs then c.observe q x else q
  | .lsq => if f.obs then c.estimate x else max q c.eps

/-- A training iteration: forward, then the optimizer where the scale is learned. -/
def trainIter (c : Cfg) (x : ℚ) (s : St) : St :=
  let q := forward c s.f x s.q
  { s with q := if c.kind = .lsq ∧ s.f.learn then c.learn q x else q }

/-- One batch of `run_epoch`, lines 114-115 and 203-222. -/
def trainBatch (c : Cfg) (epoch idx : Nat) (x : ℚ) (s : St) : St × Ev :=
  match c.kind with
  | .qat => (trainIter c x s, .train epoch idx s.f)
  | .lsq =>
    if s.first then
      let s1 := { s with f := s.f.staticEstimate }
      let s2 := trainIter c x s1
      ({ s2 with first := false, f := s2.f.paramLearning }, .train epoch idx s1.f)
    else (trainIter c x s, .train epoch idx s.f)

/-- The batches of an epoch. -/
def trainBatches (c : Cfg) (epoch idx : Nat) : List ℚ → St → St × List Ev
  | [], s => (s, [])
  | x :: xs, s =>
    let r := trainBatch c epoch idx x s
    let t := trainBatches c epoch (idx + 1) xs r.1
    (t.1, r.2 :: t.2)

/-- The batches of a validation, `QATValLoop.run`, lines 249-256 (the passes of the float
model, lines 270-272, do not reach a fake quantiser). -/
def valBatches (c : Cfg) (epoch idx : Nat) : List ℚ → St → St × List Ev
  | [], s => (s, [])
  | x :: xs, s =>
    let t := valBatches c epoch (idx + 1) xs { s with q := forward c s.f x s.q }
    (t.1, .val epoch idx s.f :: t.2)

/-- One epoch of `run`, lines 99-107, with the checkpoint of the hooks at
`after_train_epoch` (lines 120-123) and validation when due. -/
def epochRun (c : Cfg) (epoch : Nat) (data : List ℚ) (val : Option (List ℚ)) (s : St) : St × List Ev :=
  let t := trainBatches c epoch 0 data { s with f := prepareTrain c epoch s.f }
  let s1 := { t.1 with f := prepareVal c t.1.f }
  let v := match val with
    | some xs => valBatches c epoch 0 xs s1
    | none => (s1, [])
  (v.1, t.2 ++ .save epoch s1.f :: v.2)

/-- `n` epochs from `epoch` on; `data` and `val` are the batches of each epoch. -/
def run (c : Cfg) (data : Nat → List ℚ) (val : Nat → Option (List ℚ)) (epoch : Nat) : Nat → St → St × List Ev
  | 0, s => (s, [])
  | n + 1, s =>
    let r := epochRun c epoch (data epoch) (val epoch) s
    let t := run c data val (epoch + 1) n r.1
    (t.1, r.2 ++ t.2)

/-- A newly built model: fake quantisation and observers on (torch
`FakeQuantize.__init__`, lsq.py lines 119-126), a new loop. -/
def fresh (q : ℚ) : St := ⟨⟨true, true, false, false⟩, true, q⟩

/-- Resuming from a checkpoint: switches (buffers) and scale are loaded, `freeze_bn` and
`is_first_batch` are not part of it. -/
def resume (s : St) : St := ⟨{ s.f with frozen := false }, true, s.q⟩

/-- The calibration of `PTQLoop.run`, lines 343-363: the batches used. -/
def calibrationBatches (steps : Int) (xs : List ℚ) : List ℚ :=
  if 0 ≤ steps then xs.take steps.toNat else xs

/-- `PTQLoop.run`, lines 343-381, with torch fake quantisers. -/
def ptq (c : Cfg) (onlyVal : Bool) (steps : Int) (calib vals : List ℚ) (s : St) : St × List Ev :=
  let a : St × List Ev := if onlyVal then (s, []) else
    let t := trainBatches c 0 0 (calibrationBatches steps calib) { s with f := { s.f with fq := true, obs := true } }
    let s1 := { t.1 with f := { t.1.f with fq := true, obs := false } }
    (s1, t.2 ++ [.save 0 s1.f])
  let v := valBatches c 0 0 vals { a.1 with f := { a.1.f with fq := true, obs := false } }
  (v.1, a.2 ++ v.2)

end Verif.QatLoop
