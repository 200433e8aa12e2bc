import Verif.Model.Evolution
import Verif.Model.Mutator
import Verif.Model.GptqQuantizer

/-! Model of a whole evolutionary search (`mmrazor/engine/runner/evolution_search_loop.py`) on the model
that is being searched: sampling with the mutator, constraint checks and validation with the choices set
on the model, mutation and crossover of the best candidates, and the subnet exported at the end.

The searched model is its current choices (`Verif/Model/Mutator.lean`). What the estimator reports for the
exported subnet and what the evaluator reports are functions of these choices; a validation may also
depend on the epoch and on the position in the pool (calibration draws data). Single process, no
predictor. Random numbers are inputs. Scores are rational numbers; `round(x, 2)` gives the nearest
hundredth. -/

namespace Verif.SearchRun
open Verif Evolution Mutator

variable {N C : Type} [DecidableEq N]

/-- The configuration (`__init__`, lines 63-135) and the model to search. -/
structure World (N C : Type) where
  store : Nat → C → Except Err C
  groups : List (N × List Nat)
  arch : N → Bool
  estimate : St C → String → Option ℚ
  validate : Int → Nat → St C → List (String × ℚ)
  scoreKey : String
  constraints : Option (List (String × Bound))
  numCandidates : Nat
  topK : Nat
  numMutation : Nat
  numCrossover : Nat
  mutateProb : ℚ
  crossoverProb : ℚ

/-- Candidates of the search. -/
abbrev Member (N C : Type) := Cand (Subnet N C)

/-- `_epoch`, `_max_epochs`, `candidates`, `top_k_candidates` and the searched model. -/
structure Searcher (N C : Type) where
  epoch : Int
  maxEpochs : Int
  pool : List (Member N C)
  top : List (Member N C)
  model : St C

/-- The random numbers of an epoch: what `sample_choices` draws while the pool is filled; for every
mutation the member picked, what `sample_choices` draws and the draws of `crossover`; for every
crossover the two members picked and the draws. -/
structure Draws (C : Type) where
  samples : List (Offers C)
  mutPick : Nat → Nat
  mutOffers : Nat → Offers C
  mutDraw : Nat → Nat → ℚ
  crossFirst : Nat → Nat
  crossSecond : Nat → Nat
  crossDraw : Nat → Nat → ℚ

/-- `mutator.set_choices(subnet)`. -/
def apply (w : World N C) (sub : Subnet N C) (s : St C) : Except Stop (St C) :=
  match setChoices w.store sub w.groups s with
  | (s', none) => .ok s'
  | (_, some e) => .error (.raised e)

/-- `_check_constraints`, lines 390-403, with `check_subnet_resources` (`check.py` lines 16-48): whether
the subnet passes, what the estimator reported, and the model left behind. -/
def checkConstraints (w : World N C) (sub : Subnet N C) (s : St C) :
    Except Stop (Bool × (String → Option ℚ) × St C) :=
  match w.constraints with
  | none => .ok (true, fun _ => none, s)
  | some cs =>
    match apply w sub s with
    | .error e => .error e
    | .ok s' =>
      match check (some cs) (w.estimate s') with
      | .error e => .error (.raised e)
      | .ok b => .ok (b, w.estimate s', s')

/-- `mutator.sample_choices()`. -/
def draw (w : World N C) (o : Offers C) : Except Stop (Subnet N C) :=
  match sampleChoices o w.arch .random w.groups with
  | .error e => .error (.raised e)
  | .ok sub => .ok sub

/-- `sample_candidates`, lines 194-218. -/
def sample (w : World N C) : List (Offers C) → List (Member N C) → St C → Except Stop (List (Member N C) × St C)
  | [], pool, s => if pool.length < w.numCandidates then .error .stillSampling else .ok (pool, s)
  | o :: rest, pool, s =>
    if pool.length < w.numCandidates then
      match draw w o with
      | .error e => .error e
      | .ok sub =>
        match checkConstraints w sub s with
        | .error e => .error e
        | .ok (b, r, s') => sample w rest (if b then pool ++ [newCand (sub, r)] else pool) s'
    else .ok (pool, s)

/-- The score of a candidate, lines 226-227: the metric rounded to two digits, or 0 without metrics. -/
def scoreOf (w : World N C) (metrics : List (String × ℚ)) : Except Stop ℚ :=
  if metrics = [] then .ok 0
  else match metrics.lookup w.scoreKey with
    | none => .error (.raised .key)
    | some x => .ok (GptqQuantizer.rhe (x * 100) / 100)

/-- The loop of `update_candidates_scores`, lines 223-228, from position `i` on. -/
def evaluateFrom (w : World N C) (epoch : Int) : Nat → List (Member N C) → St C →
    Except Stop (List (Member N C) × St C)
  | _, [], s => .ok ([], s)
  | i, c :: rest, s =>
    match apply w c.subnet s with
    | .error e => .error e
    | .ok s' =>
      match scoreOf w (w.validate epoch i s') with
      | .error e => .error e
      | .ok x =>
        match evaluateFrom w epoch (i + 1) rest s' with
        | .error e => .error e
        | .ok (cs, s'') => .ok ({ c with score := x } :: cs, s'')

/-- `update_candidates_scores`, lines 220-235; `subnets` of an empty pool fails (`candidate.py` line
70). -/
def scoreAll (w : World N C) (epoch : Int) (pool : List (Member N C)) (s : St C) :
    Except Stop (List (Member N C) × St C) :=
  if pool = [] then .error (.raised .assertion) else evaluateFrom w epoch 0 pool s

/-- `random.choice(self.top_k_candidates.subnets)`; `k` is taken modulo the number of members. -/
def choose (top : List (Member N C)) (k : Nat) : Except Stop (Subnet N C) :=
  match top[k % top.length]? with
  | none => .error (.raised .assertion)
  | some c => .ok c.subnet

/-- `crossover(a, b, prob)`. -/
def cross (a b : Subnet N C) (prob : ℚ) (draws : Nat → ℚ) : Except Stop (Subnet N C) :=
  match crossover a b prob draws with
  | .error e => .error (.raised e)
  | .ok r => .ok r

/-- `_mutation`, lines 285-290. -/
def mutation (w : World N C) (d : Draws C) (top : List (Member N C)) (i : Nat) : Except Stop (Subnet N C) :=
  match choose top (d.mutPick i) with
  | .error e => .error e
  | .ok a =>
    match draw w (d.mutOffers i) with
    | .error e => .error e
    | .ok b => cross a b w.mutateProb (d.mutDraw i)

/-- `_crossover`, lines 292-297. -/
def crossing (w : World N C) (d : Draws C) (top : List (Member N C)) (i : Nat) : Except Stop (Subnet N C) :=
  match choose top (d.crossFirst i) with
  | .error e => .error e
  | .ok a =>
    match choose top (d.crossSecond i) with
    | .error e => .error e
    | .ok b => cross a b w.crossoverProb (d.crossDraw i)

/-- `gen_mutation_candidates` and `gen_crossover_candidates`, lines 237-283: `iter` attempts have been
made. -/
def generate (w : World N C) (num : Nat) (attempt : Nat → Except Stop (Subnet N C)) (iter : Nat)
    (acc : List (Member N C)) (s : St C) : Except Stop (List (Member N C) × St C) :=
  if acc.length < num then
    if num * 10 < iter + 1 then .ok (acc, s)
    else
      match attempt iter with
      | .error e => .error e
      | .ok sub =>
        match checkConstraints w sub s with
        | .error e => .error e
        | .ok (b, r, s') => generate w num attempt (iter + 1) (if b then acc ++ [newCand (sub, r)] else acc) s'
  else .ok (acc, s)
termination_by num * 10 - iter

/-- The second half of `run_epoch`, lines 176-192: the next generation from the scored pool. -/
def breed (w : World N C) (d : Draws C) (st : Searcher N C) (scored : List (Member N C)) (s : St C) :
    Except Stop (Searcher N C) :=
  let top := (sortBy byScore (scored ++ st.top)).take w.topK
  match generate w w.numMutation (mutation w d top) 0 [] s with
  | .error e => .error e
  | .ok (m, s1) =>
    match generate w w.numCrossover (crossing w d top) 0 [] s1 with
    | .error e => .error e
    | .ok (c, s2) =>
      if (m ++ c).length ≤ w.numCandidates then .ok ⟨st.epoch + 1, st.maxEpochs, m ++ c, top, s2⟩
      else .error (.raised .assertion)

/-- `run_epoch`, lines 155-192: the state afterwards and the scored candidates (they are logged, lines
229-235). -/
def epochOf (w : World N C) (d : Draws C) (st : Searcher N C) :
    Except Stop (Searcher N C × List (Member N C)) :=
  match sample w d.samples st.pool st.model with
  | .error e => .error e
  | .ok (pool, s) =>
    match scoreAll w st.epoch pool s with
    | .error e => .error e
    | .ok (scored, s') =>
      match breed w d st scored s' with
      | .error e => .error e
      | .ok st' => .ok (st', scored)

/-- `_save_searcher_ckpt`, lines 362-388, as far as it can fail: it logs the first of the best scores. -/
def saved (st : Searcher N C) : Except Stop Unit :=
  if st.top = [] then .error (.raised .index) else .ok ()

/-- The loop of `run`, lines 147-149, with all scored candidates. -/
def loop (w : World N C) : List (Draws C) → Searcher N C → Except Stop (Searcher N C × List (Member N C))
  | [], st => if st.epoch < st.maxEpochs then .error .stillSampling else .ok (st, [])
  | d :: rest, st =>
    if st.epoch < st.maxEpochs then
      match epochOf w d st with
      | .error e => .error e
      | .ok (st', scored) =>
        match saved st' with
        | .error e => .error e
        | .ok () =>
          match loop w rest st' with
          | .error e => .error e
          | .ok (st'', more) => .ok (st'', scored ++ more)
    else .ok (st, [])

/-- The first lines of `_save_best_fix_subnet`, 311-318: the choices of the first of the best are set on
the model, and the choices of the model are exported. -/
def exportBest (w : World N C) (st : Searcher N C) : Except Stop (Subnet N C × St C) :=
  match st.top with
  | [] => .error (.raised .assertion)
  | c :: _ =>
    match apply w c.subnet st.model with
    | .error e => .error e
    | .ok s =>
      match currentChoices s w.groups with
      | .error e => .error (.raised e)
      | .ok sub => .ok (sub, s)

/-- `run`, lines 137-153, without predictor and resumption: the exported subnet, the model in that state,
and all scored candidates. -/
def run (w : World N C) (ds : List (Draws C)) (st : Searcher N C) :
    Except Stop (Subnet N C × St C × List (Member N C)) :=
  match loop w ds st with
  | .error e => .error e
  | .ok (st', all) =>
    match exportBest w st' with
    | .error e => .error e
    | .ok (sub, s) => .ok (sub, s, all)

/-- A searcher at the start, lines 104-115: no candidates. -/
def start (maxEpochs : Int) (model : St C) : Searcher N C := ⟨0, maxEpochs, [], [], model⟩

/-- `_resume`, lines 299-309: epoch, candidates and best are those of the checkpoint, and its epoch is
subtracted from the number of epochs; the model is that of the new process. -/
def resume (ck st : Searcher N C) : Searcher N C :=
  { st with epoch := ck.epoch, pool := ck.pool, top := ck.top, maxEpochs := st.maxEpochs - ck.epoch }

end Verif.SearchRun
