import Verif.Model.Ddp

/-! Definitions used in the statements of `Verif/Props/Ddp.lean`. -/

namespace Verif.Ddp
open Verif

/-- One process that sees the batches of all processes: its loss for a pass is the mean of the
losses of the processes. -/
def together {N B W O : Type} [AddCommGroup W] [Module ℚ W] (n : ℕ) (t : Sandwich.Task N B W O) :
    Sandwich.Task (Fin n → N) (Fin n → B) W O where
  algo := t.algo
  num := t.num
  acc := t.acc
  maxIters := t.maxIters
  hard nets bs w := (1 / (n : ℚ)) • ∑ i, t.hard (nets i) (bs i) w
  soft nets bs teacher w := (1 / (n : ℚ)) • ∑ i, t.soft (nets i) (bs i) (teacher.1 i, teacher.2.1 i, teacher.2.2) w
  opt := t.opt

/-- The selections and batches of the processes in one iteration, as seen by that process. -/
def joint {n : ℕ} {K N B : Type} (x : Fin n → (K → N) × B) : (K → Fin n → N) × (Fin n → B) :=
  (fun k i => (x i).1 k, fun i => (x i).2)

/-- The part of process `i` in a forward pass. -/
def share {n : ℕ} {N B W : Type} (i : Fin n) (r : (Fin n → N) × (Fin n → B) × W) : N × B × W :=
  (r.1 i, r.2.1 i, r.2.2)

/-- The mean of the losses of the processes, for DARTS. -/
def meanLoss {B V A : Type} [AddCommGroup V] [Module ℚ V] [AddCommGroup A] [Module ℚ A] (n : ℕ) (L : Darts.Loss B V A) :
    Darts.Loss (Fin n → B) V A where
  gW bs w a := (1 / (n : ℚ)) • ∑ i, L.gW (bs i) w a
  gA bs w a := (1 / (n : ℚ)) • ∑ i, L.gA (bs i) w a

/-- The part of process `i` in a forward pass of DMCP. -/
def passOf {n : ℕ} {R B : Type} (i : Fin n) (p : DmcpTrain.Pass (Fin n → R) (Fin n → B)) : DmcpTrain.Pass R B :=
  ⟨p.mode, p.draw i, p.arch, p.batch i⟩

/-- The mean of the losses of the processes, for DMCP. -/
def meanTask {R B W A Ow Oa : Type} [AddCommGroup W] [Module ℚ W] [AddCommGroup A] [Module ℚ A] (n : ℕ)
    (t : DmcpTrain.Task R B W A Ow Oa) : DmcpTrain.Task (Fin n → R) (Fin n → B) W A Ow Oa where
  strategy := t.strategy
  archStart := t.archStart
  archFreq := t.archFreq
  distillAfter := t.distillAfter
  hard p w a := (1 / (n : ℚ)) • ∑ i, t.hard (passOf i p) w a
  soft p te w a := (1 / (n : ℚ)) • ∑ i, t.soft (passOf i p) (passOf i te.1, te.2) w a
  archLoss bs w a := (1 / (n : ℚ)) • ∑ i, t.archLoss (bs i) w a
  flops := t.flops
  optW := t.optW
  optA := t.optA

/-- The draws of an iteration as each process has them: its own draws of subnets, the same random
number. -/
def ownDraws {n : ℕ} {R : Type} (ds : List ((Fin n → R) × ℚ)) : List (Fin n → R × ℚ) := ds.map fun d i => (d.1 i, d.2)

/-- Gradient descent. -/
def sgd {W : Type} [AddCommGroup W] [Module ℚ W] (lr : ℚ) : Unit → W → W → Unit × W := fun _ w g => ((), w - lr • g)

/-- The name of a parameter in a checkpoint with `m` inserted before the last part for a
`BatchNorm2d`. -/
def inserted (k : Bool × List String) : Bool × List String :=
  if k.1 then (k.1, k.2.dropLast ++ "m" :: k.2.getLast?.toList) else k

/-- Two processes and a window of two passes. -/
def twoTask : Sandwich.Task Sandwich.Kind ℚ ℚ Unit :=
  ⟨.autoslim, 0, 2, 3, fun _ b w => b + w, fun _ b r w => b - r.2.2 + w, fun _ w g => ((), w - g)⟩

/-- A task whose losses are linear. -/
def smallDmcp : DmcpTrain.Task Unit ℚ ℚ ℚ Unit Unit where
  strategy := ["max".toList, "min".toList]
  archStart := 1
  archFreq := 2
  distillAfter := 0
  hard p w _ := (p.batch + w, 0)
  soft p te w _ := (p.batch + te.2.1 - w, 1)
  archLoss b w _ := (w, b)
  flops _ := 0
  optW _ w g := ((), w - g)
  optA _ a g := ((), a - g)

/-- The draws of the witness. -/
def someDraws : List ((Fin 2 → Unit) × ℚ) := [(fun _ => (), 0), (fun _ => (), 0)]

end Verif.Ddp
