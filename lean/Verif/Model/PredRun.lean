import Verif.Model.Evolution
import Mathlib.Analysis.SpecialFunctions.Sqrt

/-! Model of the metric predictor in the evolution search (`mmrazor/engine/runner/evolution_search_loop.py`
and `mmrazor/models/task_modules/predictor/metric_predictor.py`) and of its handlers
(`mmrazor/models/task_modules/predictor/handler/*.py`). -/

namespace Verif.PredRun
open Verif

/-! ### The search with a predictor -/

section Search
variable {S H : Type}

/-- Where the score of a subnet came from. -/
inductive Source
  | validated | predicted
deriving DecidableEq, Repr

/-- Why a run did not complete. -/
abbrev Stop := Evolution.Stop

/-- What a file of training samples holds (`fileio.load(train_samples)`): nothing under `subnets`, a plain
list under it, or a `Candidates` object. -/
inductive Samples (S : Type)
  | noKey
  | plain
  | cands (l : List (S × ℚ))

/-- `train_samples`: a path or a number. -/
inductive Train (S : Type)
  | file (f : Samples S)
  | number (n : Nat)

/-- `predictor_cfg`: a checkpoint of the handler (what loading it gives), or how to train it. -/
inductive PredCfg (S H : Type)
  | ckpt (h : Except Err H)
  | train (t : Train S)

/-- The surroundings: validation of a subnet, training of a handler, its prediction, and rounding to
two digits. -/
structure Env (S H : Type) where
  real : S → ℚ
  fit : List (S × ℚ) → Except Err H
  predict : H → S → Except Err ℚ
  rnd : ℚ → ℚ

/-- The searcher: `use_predictor` with the handler, the state of the search, and all scores made so
far. -/
structure Run (S H : Type) where
  use : Bool
  handler : Option H
  st : Evolution.State S
  log : List (S × Source × ℚ)

/-- `_val_candidate` with the rounding of `update_candidates_scores`, lines 340-360 and 225-227. The
predictor insists on being initialised, metric_predictor.py lines 70-72. -/
def score (env : Env S H) (use : Bool) (h : Option H) (s : S) : Except Err ℚ :=
  if use then
    match h with
    | none => .error .assertion
    | some h =>
      match env.predict h s with
      | .error e => .error e
      | .ok v => .ok (env.rnd v)
  else .ok (env.rnd (env.real s))

/-- The source of a score. -/
def source (use : Bool) : Source := if use then .predicted else .validated

/-- The scores of a pool, lines 220-228. -/
def scores (env : Env S H) (use : Bool) (h : Option H) : List S → Except Err (List ℚ)
  | [] => .ok []
  | s :: l =>
    match score env use h s with
    | .error e => .error e
    | .ok v =>
      match scores env use h l with
      | .error e => .error e
      | .ok vs => .ok (v :: vs)

/-- What is logged for a pool. -/
def entries (use : Bool) (l : List S) (vs : List ℚ) : List (S × Source × ℚ) :=
  List.zipWith (fun s v => (s, source use, v)) l vs

/-- `_init_predictor`, lines 405-443. Sampling uses the number of training samples for the size of the
pool. -/
def initPredictor (cfg : Evolution.Cfg) (env : Env S H) (samples : List (S × (String → Option ℚ))) (p : PredCfg S H) (r : Run S H) :
    Except Stop (Run S H) :=
  match p with
  | .ckpt (.error e) => .error (.raised e)
  | .ckpt (.ok h) => .ok { r with handler := some h }
  | .train (.file .noKey) => .error (.raised .key)
  | .train (.file .plain) => .error (.raised .attribute)
  | .train (.file (.cands l)) =>
    match env.fit l with
    | .error e => .error (.raised e)
    | .ok h => .ok { r with use := true, handler := some h, st := { r.st with pool := [] } }
  | .train (.number n) =>
    match Evolution.sampleLoop { cfg with numCandidates := n } samples r.st.pool with
    | .error e => .error e
    | .ok pool =>
      match scores env r.use r.handler (pool.map (·.subnet)) with
      | .error e => .error (.raised e)
      | .ok vs =>
        match env.fit ((pool.map (·.subnet)).zip vs) with
        | .error e => .error (.raised e)
        | .ok h =>
          .ok { use := true, handler := some h, st := { r.st with pool := [] }, log := r.log ++ entries r.use (pool.map (·.subnet)) vs }

/-- `run_epoch` with the scores of the pool. -/
def epoch (cfg : Evolution.Cfg) (env : Env S H) (inp : Evolution.Inputs S) (r : Run S H) : Except Stop (Run S H) :=
  match Evolution.sampleLoop cfg inp.samples r.st.pool with
  | .error e => .error e
  | .ok pool =>
    match scores env r.use r.handler (pool.map (·.subnet)) with
    | .error e => .error (.raised e)
    | .ok vs =>
      match Evolution.runEpoch cfg { inp with score := fun i => vs.getD i 0 } r.st with
      | .error e => .error e
      | .ok st => .ok { r with st := st, log := r.log ++ entries r.use (pool.map (·.subnet)) vs }

/-- The epochs. -/
def epochs (cfg : Evolution.Cfg) (env : Env S H) : List (Evolution.Inputs S) → Run S H → Except Stop (Run S H)
  | [], r => .ok r
  | i :: l, r =>
    match epoch cfg env i r with
    | .error e => .error e
    | .ok r => epochs cfg env l r

/-- The state before the predictor. -/
def start (st : Evolution.State S) : Run S H := ⟨false, none, st, []⟩

/-- `run`, lines 137-149, with `predictor_cfg` or without, for the given epochs. -/
def run (cfg : Evolution.Cfg) (env : Env S H) (samples : List (S × (String → Option ℚ))) (p : Option (PredCfg S H)) (inputs : List (Evolution.Inputs S))
    (st : Evolution.State S) : Except Stop (Run S H) :=
  match p with
  | none => epochs cfg env inputs (start st)
  | some p =>
    match initPredictor cfg env samples p (start st) with
    | .error e => .error e
    | .ok r => epochs cfg env inputs r

/-- What a file written by `_save_searcher_ckpt` (lines 370-377: `_epoch`, `candidates`,
`top_k_candidates`) is as a file of training samples. -/
def searcherFile (_ : Evolution.State S) : Samples S := .noKey

end Search

/-! ### The network handler -/

section Mlp
variable {W X : Type}

/-- A loss of a network: a number or not a number. -/
inductive Loss
  | num (q : ℚ)
  | nan
deriving DecidableEq, Repr

/-- The training of a network: one step on a batch and the loss on a batch. Weights that are not numbers
are `none`. -/
structure Trainer (W X : Type) where
  step : List X → W → W
  loss : List X → W → ℚ

/-- One step of training, mlp_handler.py lines 165-171: the loss of an empty batch is not a number, and neither
are the weights after such a step. -/
def Trainer.update (t : Trainer W X) (b : List X) (w : Option W) : Option W := if b = [] then none else w.map (t.step b)

/-- The loss on the validation batch, lines 173-179. -/
def Trainer.valid (t : Trainer W X) (b : List X) : Option W → Loss
  | none => .nan
  | some w => if b = [] then .nan else .num (t.loss b w)

/-- The first value of `best_loss`. -/
def huge : ℚ := 10 ^ 33

/-- The loop of `train_mlp`, lines 160-187: `n` epochs are left. -/
def trainLoop (t : Trainer W X) (tr va : List X) : Nat → Option W → ℚ → Option (Option W) → Option (Option W)
  | 0, _, _, best => best
  | n + 1, w, bl, best =>
    let w := t.update tr w
    match t.valid va w with
    | .num q => if q < bl then trainLoop t tr va n w q (some w) else trainLoop t tr va n w bl best
    | .nan => trainLoop t tr va n w bl best

/-- `int(num_samples * data_split_ratio)`, lines 148-149 (the product is a rational number here), used as
the end of a slice. -/
def splitAt (n : Nat) (ratio : ℚ) : Nat :=
  let k := pyInt (n * ratio)
  if k < 0 then (n + k).toNat else min n k.toNat

/-- `train_mlp`, lines 133-189: `perm` are the samples in a random order. -/
def trainMlp (t : Trainer W X) (ratio : ℚ) (epochs : Int) (perm : List X) (w : W) : Except Err (Option W) :=
  let k := splitAt perm.length ratio
  match trainLoop t (perm.take k) (perm.drop k) epochs.toNat (some w) huge none with
  | none => .error .name
  | some w => .ok w

/-- The shapes of the first layer (the others do not depend on the data), `MLP.__init__`, lines 38-60. -/
structure MlpCfg where
  inFeatures : Nat := 78
  hiddenFeatures : Nat := 300
deriving DecidableEq, Repr

/-- `hidden_features or in_features`, line 47. -/
def MlpCfg.hidden (c : MlpCfg) : Nat := if c.hiddenFeatures = 0 then c.inFeatures else c.hiddenFeatures

/-- A network handler: the shape of its first layer and its weights. -/
structure Mlp (W : Type) where
  shape : Nat × Nat
  weights : W
deriving DecidableEq, Repr

/-- `MLPHandler.__init__`. -/
def Mlp.new (c : MlpCfg) (w : W) : Mlp W := ⟨(c.hidden, c.inFeatures), w⟩

/-- `MLPHandler.fit`, lines 97-107: the first layer is replaced if the data have another width. `train` gives
the weights after training. -/
def Mlp.fit (m : Mlp W) (width : Nat) (train : W → W) : Mlp W :=
  if width ≠ m.shape.2 then ⟨(m.shape.1, width), train m.weights⟩ else ⟨m.shape, train m.weights⟩

/-- `MLPHandler.load` of what `save` wrote, lines 131-141: `load_state_dict` refuses other shapes. -/
def Mlp.load (m saved : Mlp W) : Except Err (Mlp W) := if saved.shape = m.shape then .ok ⟨m.shape, saved.weights⟩ else .error .runtime

end Mlp

/-! ### Regression trees -/

section Carts
variable {T V : Type}

/-- The choices of one tree: the order of the rows, the order of the features and their number
(`randint(1, width + 1)`). -/
structure Draw where
  rows : List Nat
  feats : List Nat
  n : Nat

/-- `l[idx]`. -/
def pick {A : Type} [Inhabited A] (l : List A) (idx : List Nat) : List A := idx.map fun i => l.getD i default

/-- `_make_decision_trees`, carts_handler.py lines 66-97: the rows are shuffled again for each tree.
`fit` trains one tree. -/
def makeTrees [Inhabited V] (fit : List (List V × ℚ) → T) : List Draw → List (List V) → List ℚ → List (T × List Nat)
  | [], _, _ => []
  | d :: ds, data, label =>
    let data := pick data d.rows
    let label := pick label d.rows
    let sel := d.feats.take d.n
    (fit ((data.map fun row => pick row sel).zip label), sel) :: makeTrees fit ds data label

/-- The prediction for one row, lines 44-63: the mean over all trees (of the sorted predictions). Without
trees it is not a number. -/
def predictRow [Inhabited V] (ev : T → List V → ℚ) (trees : List (T × List Nat)) (row : List V) : Option ℚ :=
  let ps := sortBy (fun a b => decide (a ≥ b)) (trees.map fun p => ev p.1 (pick row p.2))
  if ps = [] then none else some (ps.sum / ps.length)

end Carts

/-! ### Interpolation and Gaussian processes -/

/-- `RBFHandler.fit`, rbf_handler.py lines 39-59: the points of the interpolant. -/
def rbfFit {V : Type} (width : Nat) (data : List (List V)) (label : List ℚ) : Except Err (List (List V × ℚ)) :=
  if data.length ≤ width then .error .value else .ok (data.zip label)

/-- The encoding of the search space, metric_predictor.py lines 44-52: one of two names, and always `normal` for
interpolation. -/
def encoding (rbf : Bool) (t : String) : Except Err String :=
  if t = "normal" ∨ t = "onehot" then .ok (if rbf then "normal" else t) else .error .assertion

/-- The mean and the deviation of a column with their shift, gp_handler.py lines 58-59 (`ddof=1`: the deviation
of a single row is not a number). -/
noncomputable def gpStats (x : List ℝ) : Option (ℝ × ℝ) :=
  if x.length ≤ 1 then none
  else
    let m := x.sum / x.length
    some (m, Real.sqrt ((x.map fun v => (v - m) ^ 2).sum / (x.length - 1)) + 1e-6)

/-- The normalised column, lines 61-62. -/
noncomputable def gpNormal (x : List ℝ) : Option (List ℝ) := (gpStats x).map fun s => x.map fun v => (v - s.1) / s.2

end Verif.PredRun
