import Mathlib.Algebra.BigOperators.Group.Finset.Basic
import Mathlib.Algebra.BigOperators.Fin
import Mathlib.Data.Fin.Tuple.Basic
import Verif.Model.Darts
import Verif.Model.DmcpTrain
import Verif.Model.Sandwich

/-! Model of training in several processes: the wrappers `AutoSlimDDP`
(`mmrazor/models/algorithms/nas/autoslim.py` lines 178-263), `BigNASDDP` (`nas/bignas.py` lines
182-280), `SlimmableNetworkDDP` (`pruning/slimmable_network.py` lines 143-219), `DartsDDP`
(`nas/darts.py` lines 295-523), `DMCPDDP` (`pruning/dmcp.py` lines 313-425), `DSNASDDP`
(`nas/dsnas.py` lines 258-332) and `GroupFisherDDP`
(`implementations/pruning/group_fisher/algorithm.py` lines 79-87).

`n` processes hold a replica of the state each. PyTorch's `DistributedDataParallel` is not part of
the repository and is modelled from its documentation: a backward pass after a forward pass
*through the wrapper*, outside `no_sync`, replaces the accumulated gradients of all parameters on
each process by their mean over the processes; any other backward pass leaves the gradients of a
process as they are. mmengine's `optim_context(model)` enters `no_sync` when the wrapper says that
this is not the last pass of an accumulation window. Buffers of the model are left out. -/

namespace Verif.Ddp
open Verif

/-- The mean over the processes, which `DistributedDataParallel` leaves in the gradients. -/
def mean {n : ℕ} {V : Type} [AddCommGroup V] [Module ℚ V] (x : Fin n → V) : V := (1 / (n : ℚ)) • ∑ i, x i

/-- All processes do something that may raise; the error of the first one that raises ends the
training. -/
def gather {X : Type} : {n : ℕ} → (Fin n → Except Err X) → Except Err (Fin n → X)
  | 0, _ => .ok Fin.elim0
  | _ + 1, f =>
    match f 0 with
    | .error e => .error e
    | .ok x =>
      match gather fun i => f i.succ with
      | .error e => .error e
      | .ok r => .ok (Fin.cons x r)

/-! ### Training of several subnets with accumulated gradients -/
section
open Verif.Sandwich
variable {N B W O : Type} [AddCommGroup W] [Module ℚ W] {n : ℕ}

/-- `OptimWrapper.should_sync` of mmengine, asked when the context is entered. -/
def shouldSync (c : Counter) : Bool := (c.inner + 1) % c.acc == 0 || c.inner + 1 == c.max

/-- The forward pass of a process and the gradient of its loss: autoslim.py lines 194-212,
220-222 and 226-232, bignas.py lines 198-214, 225-231 and 235-242, slimmable_network.py lines
186-190. -/
def forward (t : Task N B W O) (pick : Kind → N) (b : B) (k : Kind) (s : St N B W O) : Except Err (St N B W O × W) :=
  match k with
  | .max => .ok ({ s with teacher := some (pick k, b, s.w), log := s.log ++ [(pick k, b, s.w)] }, t.hard (pick k) b s.w)
  | .subnet _ => .ok ({ s with log := s.log ++ [(pick k, b, s.w)] }, t.hard (pick k) b s.w)
  | _ =>
    match s.teacher with
    | none => .error .assertion
    | some r =>
      let soft := t.soft (pick k) b r s.w
      .ok ({ s with log := s.log ++ [(pick k, b, s.w)] },
        match t.algo with
        | .bignas => soft
        | _ => t.hard (pick k) b s.w + soft)

/-- The first half of `update_params`: the scaled loss is differentiated. -/
def accumulate (s : St N B W O) (grad : W) : Except Err (St N B W O) :=
  match s.c.factor with
  | .error e => .error e
  | .ok f => .ok { s with g := s.g + (1 / (f : ℚ)) • grad }

/-- The exchange of the gradients. If some processes take part and others do not, they wait for
ever; this is a `RuntimeError` here. -/
def exchange (ss : Fin n → St N B W O) : Except Err (Fin n → St N B W O) :=
  if ∀ i, shouldSync (ss i).c = true then .ok fun i => { ss i with g := mean fun j => (ss j).g }
  else if ∀ i, shouldSync (ss i).c = false then .ok ss
  else .error .runtime

/-- The second half of `update_params`: count, and perhaps a step of the optimizer. -/
def applyStep (t : Task N B W O) (s : St N B W O) : St N B W O :=
  let c := { s.c with inner := s.c.inner + 1 }
  if c.shouldUpdate then { s with w := (t.opt s.o s.w s.g).2, o := (t.opt s.o s.w s.g).1, g := 0, c := c }
  else { s with c := c }

/-- The body of the loop over the kinds on all processes, autoslim.py lines 227-251, bignas.py
lines 230-269, slimmable_network.py lines 186-191; each process has its own batch and its own
selection of subnets. -/
def trainKind (t : Task N B W O) (x : Fin n → (Kind → N) × B) (ss : Fin n → St N B W O) (k : Kind) :
    Except Err (Fin n → St N B W O) :=
  match gather fun i => forward t (x i).1 (x i).2 k (ss i) with
  | .error e => .error e
  | .ok fs =>
    match gather fun i => accumulate (fs i).1 (fs i).2 with
    | .error e => .error e
    | .ok gs => (exchange gs).map fun rs i => applyStep t (rs i)

/-- `train_step` of the wrappers. The flag `_optim_wrapper_count_status_reinitialized` is the one
of the wrapped model (autoslim.py lines 253-263). -/
def trainStep (t : Task N B W O) (it : ℕ) (x : Fin n → (Kind → N) × B) (ss : Fin n → St N B W O) :
    Except Err (Fin n → St N B W O) :=
  (kinds t.algo t.num).foldlM (trainKind t x) fun i => (ss i).reinit t it

/-- Iterations `it`, `it + 1`, ... -/
def run (t : Task N B W O) : ℕ → List (Fin n → (Kind → N) × B) → (Fin n → St N B W O) → Except Err (Fin n → St N B W O)
  | _, [], ss => .ok ss
  | it, x :: rest, ss =>
    match trainStep t it x ss with
    | .error e => .error e
    | .ok ss' => run t (it + 1) rest ss'

end

/-! ### DARTS -/
section
open Verif.Darts
variable {B V A : Type} [AddCommGroup V] [Module ℚ V] [AddCommGroup A] [Module ℚ A] {n : ℕ}

/-- Forward pass through the wrapper and backward pass (no accumulation over iterations: the
gradients are always exchanged). -/
def dBackward (L : Loss B V A) (b : Fin n → B) (ss : Fin n → Darts.St V A) : Fin n → Darts.St V A :=
  let loc := fun i => backward L (b i) (ss i)
  fun i => { loc i with gw := mean fun j => (loc j).gw, ga := mean fun j => (loc j).ga }

/-- `_restore_weights` on all processes, darts.py lines 474-479. -/
def dRestore (backup : Fin n → V) (ss : Fin n → Darts.St V A) : Fin n → Darts.St V A :=
  fun i => restore (backup i) (ss i)

/-- A turn of the loop of `_compute_hessian`, darts.py lines 501-516. -/
def dPerturb (L : Loss B V A) (trn : Fin n → B) (dw : Ref V A V) (e : Fin n → ℚ) (ss : Fin n → Darts.St V A) :
    Fin n → Darts.St V A :=
  dBackward L trn fun i => { ss i with w := (ss i).w + e i • dw (ss i) }

/-- `_compute_hessian`, darts.py lines 481-523. -/
def dHessian (L : Loss B V A) (trn : Fin n → B) (epsOf : V → ℚ) (backup : Fin n → V) (dw : Ref V A V)
    (ss : Fin n → Darts.St V A) : (Fin n → Darts.St V A) × (Fin n → A) :=
  let ss := dRestore backup ss
  let eps := fun i => epsOf (dw (ss i))
  let ss := dPerturb L trn dw eps ss
  let pos : Ref V A A := fun s => s.ga
  let ss := dPerturb L trn dw (fun i => -2 * eps i) ss
  let neg : Ref V A A := fun s => s.ga
  (ss, fun i => (1 / (2 * eps i)) • (pos (ss i) - neg (ss i)))

/-- `_unrolled_backward`, darts.py lines 406-451, with `_compute_virtual_model`, lines 453-472, whose
last line does not write the parameters. -/
def dUnrolled (L : Loss B V A) (trn val : Fin n → B) (lr : ℚ) (epsOf : V → ℚ) (ss : Fin n → Darts.St V A) :
    Fin n → Darts.St V A :=
  let backup := fun i => (ss i).w
  let ss := dBackward L trn ss
  let ss := dBackward L val ss
  let dModel : Ref V A V := fun s => s.gw
  let dArch : Ref V A A := fun s => s.ga
  let r := dHessian L trn epsOf backup dModel ss
  dRestore backup fun i => { r.1 i with ga := dArch (r.1 i) - lr • r.2 i }

/-- `update_params` of the two optimizers. -/
def dUpdateW (L : Loss B V A) (O : Opt V A) (b : Fin n → B) (ss : Fin n → Darts.St V A) : Fin n → Darts.St V A :=
  let ss := dBackward L b ss
  fun i => { ss i with w := O.stepW (ss i).w (ss i).gw, gw := 0 }

/-- See `dUpdateW`. -/
def dUpdateA (L : Loss B V A) (O : Opt V A) (b : Fin n → B) (ss : Fin n → Darts.St V A) : Fin n → Darts.St V A :=
  let ss := dBackward L b ss
  fun i => { ss i with a := O.stepA (ss i).a (ss i).ga, ga := 0 }

/-- `DartsDDP.train_step` with one optimizer per part, darts.py lines 344-392. -/
def dTrainStep (L : Loss B V A) (O : Opt V A) (unroll : Bool) (lr : ℚ) (epsOf : V → ℚ) (trn val : Fin n → B)
    (ss : Fin n → Darts.St V A) : Fin n → Darts.St V A :=
  if unroll then
    let ss := dUnrolled L trn val lr epsOf fun i => { ss i with ga := 0 }
    dUpdateW L O trn fun i => { ss i with a := O.stepA (ss i).a (ss i).ga }
  else dUpdateW L O trn (dUpdateA L O val ss)

/-- A search: the batches of an iteration, one pair for each process. -/
def dRun (L : Loss B V A) (O : Opt V A) (unroll : Bool) (lr : ℚ) (epsOf : V → ℚ) (ss : Fin n → Darts.St V A)
    (data : List ((Fin n → B) × (Fin n → B))) : Fin n → Darts.St V A :=
  data.foldl (fun ss b => dTrainStep L O unroll lr epsOf b.1 b.2 ss) ss

end

/-! ### DMCP -/
section
open Verif.DmcpTrain
variable {R B W A Ow Oa : Type} [AddCommGroup W] [Module ℚ W] [AddCommGroup A] [Module ℚ A] {n : ℕ}

/-- `optim_wrapper['architecture'].update_params` after a pass through the wrapper. -/
def mWeightStep (t : Task R B W A Ow Oa) (gs : Fin n → W × A) (ss : Fin n → DmcpTrain.St R B W A Ow Oa) :
    Fin n → DmcpTrain.St R B W A Ow Oa :=
  let gw := mean fun j => (ss j).gw + (gs j).1
  let ga := mean fun j => (ss j).ga + (gs j).2
  fun i => { ss i with w := (t.optW (ss i).ow (ss i).w gw).2, ow := (t.optW (ss i).ow (ss i).w gw).1, gw := 0, ga := ga }

/-- The mode of an entry of the strategy on a process, dmcp.py lines 359-415: `none` for an entry that
is skipped. -/
def modeOf (s : DmcpTrain.St R B W A Ow Oa) (e : Name × R × ℚ) : Option Mode :=
  match kindOf e.1 with
  | .max => some .max
  | .min => some .min
  | .archRandom => some (if s.archTrain then .direct else .random)
  | .scheduledRandom => some (if s.prob < e.2.2 ∧ s.archTrain then .direct else .random)
  | .ignored => none

/-- The forward pass of an entry on a process, with the gradients: lines 362-367 for the largest
subnet and 334-351 for the others. -/
def mForward (t : Task R B W A Ow Oa) (it : ℕ) (mode : Mode) (r : R) (b : B) (s : DmcpTrain.St R B W A Ow Oa) :
    Except Err (DmcpTrain.St R B W A Ow Oa × (W × A)) :=
  let p : Pass R B := ⟨mode, r, s.archTrain, b⟩
  match mode with
  | .max => .ok ({ s with teacher := some (p, s.w, s.a), log := s.log ++ [.weight p none] }, t.hard p s.w s.a)
  | _ =>
    if t.distillAfter < it then
      match s.teacher with
      | none => .error .assertion
      | some te => .ok ({ s with log := s.log ++ [.weight p (some te)] }, t.hard p s.w s.a + t.soft p te s.w s.a)
    else .ok ({ s with log := s.log ++ [.weight p none] }, t.hard p s.w s.a)

/-- Line 415. -/
def decay (k : Kind) (s : DmcpTrain.St R B W A Ow Oa) : DmcpTrain.St R B W A Ow Oa :=
  if k = .scheduledRandom then { s with prob := s.prob * (9999 / 10000) } else s

/-- One entry on one process up to the gradients. -/
def mLocal (t : Task R B W A Ow Oa) (it : ℕ) (b : B) (e : Name × R × ℚ) (s : DmcpTrain.St R B W A Ow Oa) :
    Except Err (Option (DmcpTrain.St R B W A Ow Oa × (W × A))) :=
  match modeOf s e with
  | none => .ok none
  | some m => (mForward t it m e.2.1 b s).map some

/-- One entry of the strategy on all processes; the name is the same everywhere, so that all
processes or none have a forward pass. -/
def mEntry (t : Task R B W A Ow Oa) (it : ℕ) (b : Fin n → B) (ss : Fin n → DmcpTrain.St R B W A Ow Oa)
    (e : Name × (Fin n → R × ℚ)) : Except Err (Fin n → DmcpTrain.St R B W A Ow Oa) :=
  if kindOf e.1 = .ignored then .ok ss
  else
    match gather fun i => mLocal t it (b i) (e.1, e.2 i) (ss i) with
    | .error e => .error e
    | .ok fs =>
      let st := fun i => ((fs i).map (·.1)).getD (ss i)
      let gs := fun i => ((fs i).map (·.2)).getD 0
      .ok fun i => decay (kindOf e.1) (mWeightStep t gs st i)

/-- Lines 417-424: `self.module._update_arch_params` runs the model itself, not the wrapper, so that
nothing is exchanged. -/
def mFinish (t : Task R B W A Ow Oa) (it : ℕ) (b : Fin n → B) (ss : Fin n → DmcpTrain.St R B W A Ow Oa) :
    Except Err (Fin n → DmcpTrain.St R B W A Ow Oa) :=
  gather fun i => (ss i).finish t it (b i)

/-- Lines 329-331. -/
def mStart (t : Task R B W A Ow Oa) (it : ℕ) (s : DmcpTrain.St R B W A Ow Oa) : DmcpTrain.St R B W A Ow Oa :=
  if s.archTrain = false ∧ t.archStart < it then { s with archTrain := true } else s

/-- `DMCPDDP.train_step`, lines 326-425. -/
def mStep (t : Task R B W A Ow Oa) (it : ℕ) (b : Fin n → B) (ds : List (Fin n → R × ℚ))
    (ss : Fin n → DmcpTrain.St R B W A Ow Oa) : Except Err (Fin n → DmcpTrain.St R B W A Ow Oa) :=
  match (t.strategy.zip ds).foldlM (mEntry t it b) (fun i => mStart t it (ss i)) with
  | .error e => .error e
  | .ok ss' => mFinish t it b ss'

/-- Iterations `it`, `it + 1`, ... -/
def mRun (t : Task R B W A Ow Oa) : ℕ → List ((Fin n → B) × List (Fin n → R × ℚ)) → (Fin n → DmcpTrain.St R B W A Ow Oa) →
    Except Err (Fin n → DmcpTrain.St R B W A Ow Oa)
  | _, [], ss => .ok ss
  | it, x :: rest, ss =>
    match mStep t it x.1 x.2 ss with
    | .error e => .error e
    | .ok ss' => mRun t (it + 1) rest ss'

end

/-! ### Group Fisher pruning and the architecture parameters of DSNAS -/
section
variable {B K W O : Type} [AddCommGroup W] [Module ℚ W] {n : ℕ}

/-- `GroupFisherDDP.train_step`: group_fisher/algorithm.py lines 85-87 with 60-76. `_train_step` is
called with the wrapped model, whose `train_step` of mmengine runs the model itself: each process
makes a step with its own gradient. The pruning of channels is left out. -/
def fisherStep (grad : B → W → W) (opt : O → W → W → O × W) (b : Fin n → B) (s : Fin n → O × W) : Fin n → O × W :=
  fun i => opt (s i).1 (s i).2 (grad (b i) (s i).2)

/-- Several iterations. -/
def fisherRun (grad : B → W → W) (opt : O → W → W → O × W) (data : List (Fin n → B)) (s : Fin n → O × W) : Fin n → O × W :=
  data.foldl (fun s b => fisherStep grad opt b s) s

/-- The update of the architecture parameters in `DSNASDDP.train_step`, dsnas.py lines 312-320:
`compute_mutator_loss` divides the loss by the number of processes (lines 234 and 243) and is called
on the model itself; `k i` are the choices process `i` has sampled. -/
def dsnasStep (grad : K → W → W) (opt : O → W → W → O × W) (k : Fin n → K) (s : Fin n → O × W) : Fin n → O × W :=
  fun i => opt (s i).1 (s i).2 ((1 / (n : ℚ)) • grad (k i) (s i).2)

/-- Several iterations. -/
def dsnasRun (grad : K → W → W) (opt : O → W → W → O × W) (ks : List (Fin n → K)) (s : Fin n → O × W) : Fin n → O × W :=
  ks.foldl (fun s k => dsnasStep grad opt k s) s

/-- `dist.broadcast(v, src=0)` for all parameters at the start of the finetune stage, dsnas.py
lines 290-294. -/
def broadcast (s : Fin (n + 1) → O × W) : Fin (n + 1) → O × W := fun i => ((s i).1, (s 0).2)

end

/-! ### The wrapper around batch normalisation -/

/-- A module: a `BatchNorm2d` or another module without children, with the names of its parameters
and buffers, or a module with children. -/
inductive Mod where
  | leaf (bn : Bool) (names : List String)
  | node (children : List (String × Mod))

mutual
/-- `add_fp16_bn_wrapper`, darts.py lines 310-317; the condition `fp16` is the constant `True`. -/
def wrap : Mod → Mod
  | .leaf bn ns => .leaf bn ns
  | .node cs => .node (wrapAll cs)
/-- The loop over `named_children()`; a `BatchNormWrapper` has the one child `m` (lines 282-286). -/
def wrapAll : List (String × Mod) → List (String × Mod)
  | [] => []
  | (name, c) :: cs =>
    match c with
    | .leaf true ns => (name, .node [("m", .leaf true ns)]) :: wrapAll cs
    | c => (name, wrap c) :: wrapAll cs
end

mutual
/-- The keys of `state_dict()`, as lists of names, each with whether it belongs to a
`BatchNorm2d`. -/
def keys : Mod → List (Bool × List String)
  | .leaf bn ns => ns.map fun x => (bn, [x])
  | .node cs => keysAll cs
/-- The keys of the children. -/
def keysAll : List (String × Mod) → List (Bool × List String)
  | [] => []
  | (name, c) :: cs => (keys c).map (fun k => (k.1, name :: k.2)) ++ keysAll cs
end

end Verif.Ddp
