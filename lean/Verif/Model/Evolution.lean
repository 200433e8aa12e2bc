import Verif.Py
import Verif.Sort

/-! Model of `mmrazor/engine/runner/evolution_search_loop.py`,
`mmrazor/engine/runner/utils/check.py` and `genetic.py`.

Randomness, resource estimates and validation scores are inputs. The candidate
objects of the pool and of the top-k list are never shared at the time they are
written to (the pool of an epoch consists of new objects), so candidates are plain
values here. -/

namespace Verif.Evolution
open Verif

/-! ### Resource check -/

/-- A constraint: a single number or a `(low, high)` pair. -/
inductive Bound where
  | scalar (v : ℚ)
  | pair (lo hi : ℚ)
  deriving DecidableEq, Repr

/-- Lines 42-44 of `check.py`: a single number means `(0, v)`. -/
def Bound.range : Bound → ℚ × ℚ
  | .scalar v => (0, v)
  | .pair lo hi => (lo, hi)

/-- The loop of `check_subnet_resources`, lines 42-48. `results[k]` is a
`KeyError` when the estimator does not report `k`. -/
def checkLoop (results : String → Option ℚ) : List (String × Bound) → Except Err Bool
  | [] => .ok true
  | (k, b) :: rest => match results k with
    | none => .error .key
    | some x => if x < b.range.1 ∨ x > b.range.2 then .ok false else checkLoop results rest

/-- `check_subnet_resources`, lines 17-48, given the estimate of the subnet. No
constraints means everything passes (lines 29-30). -/
def check (constraints : Option (List (String × Bound))) (results : String → Option ℚ) :
    Except Err Bool :=
  match constraints with
  | none => .ok true
  | some cs => checkLoop results cs

/-! ### Crossover -/

/-- A subnet: a dictionary from group to choice. -/
abbrev Subnet (G C : Type) := List (G × C)

/-- `d[k] = v`. -/
def put {G C : Type} [DecidableEq G] (d : Subnet G C) (k : G) (v : C) : Subnet G C :=
  if d.any (fun p => decide (p.1 = k)) then d.map (fun p => if p.1 = k then (k, v) else p)
  else d ++ [(k, v)]

/-- The loop of `crossover`, lines 28-30 of `genetic.py`; `draws i` is the `i`-th
value of `np.random.random_sample()`. -/
def crossLoop {G C : Type} [DecidableEq G] (prob : ℚ) (draws : Nat → ℚ) :
    List (G × C) → Nat → Subnet G C → Subnet G C
  | [], _, acc => acc
  | (k, v) :: rest, i, acc => crossLoop prob draws rest (i + 1) (if draws i < prob then put acc k v else acc)

/-- `crossover`, lines 9-31 of `genetic.py`. -/
def crossover {G C : Type} [DecidableEq G] (a b : Subnet G C) (prob : ℚ) (draws : Nat → ℚ) :
    Except Err (Subnet G C) :=
  if prob ≥ 0 ∧ prob ≤ 1 then .ok (crossLoop prob draws b 0 a) else .error .assertion

/-! ### The search loop -/

/-- A candidate: the subnet, its estimated resources, its score. -/
structure Cand (S : Type) where
  subnet : S
  res : String → Option ℚ
  score : ℚ

/-- Configuration (`__init__`, lines 63-104). `pass` is the constraint check. -/
structure Cfg where
  numCandidates : Nat
  topK : Nat
  numMutation : Nat
  numCrossover : Nat
  pass : (String → Option ℚ) → Bool

/-- Searcher state: `_epoch`, `_max_epochs`, `candidates`, `top_k_candidates`. -/
structure State (S : Type) where
  epoch : Int
  maxEpochs : Int
  pool : List (Cand S)
  top : List (Cand S)

/-- Outcomes of one epoch that are not inputs of the algorithm itself: the random
samples with their estimates, the scores of the evaluated pool by position, the
mutation and crossover attempts with their estimates. -/
structure Inputs (S : Type) where
  samples : List (S × (String → Option ℚ))
  score : Nat → ℚ
  mutations : Nat → S × (String → Option ℚ)
  crossovers : Nat → S × (String → Option ℚ)

/-- Why an epoch did not complete. -/
inductive Stop where
  | raised (e : Err)
  | stillSampling
  deriving DecidableEq, Repr

/-- A newly formed candidate; its score is -1 until it is evaluated
(`candidate.py` line 119). -/
def newCand {S : Type} (p : S × (String → Option ℚ)) : Cand S := ⟨p.1, p.2, -1⟩

/-- The `while` loop of `sample_candidates`, lines 199-205: samples are drawn until
the pool is full. -/
def sampleLoop {S : Type} (cfg : Cfg) : List (S × (String → Option ℚ)) → List (Cand S) → Except Stop (List (Cand S))
  | samples, pool =>
    if pool.length < cfg.numCandidates then
      match samples with
      | [] => .error .stillSampling
      | p :: rest => sampleLoop cfg rest (if cfg.pass p.2 then pool ++ [newCand p] else pool)
    else .ok pool
termination_by samples _ => samples.length

/-- `update_candidates_scores`, lines 220-228: position `i` receives the `i`-th
score. -/
def evaluate {S : Type} (score : Nat → ℚ) (pool : List (Cand S)) : List (Cand S) :=
  pool.mapIdx (fun i c => { c with score := score i })

/-- The loop of `gen_mutation_candidates` (lines 237-259) and
`gen_crossover_candidates` (lines 261-283): `iter` attempts have been made, the
next one is attempt number `iter`; gives up after `10 * num` attempts. Returns the
candidates and the number of attempts made. -/
def genLoop {S : Type} (pass : (String → Option ℚ) → Bool) (num : Nat)
    (attempt : Nat → S × (String → Option ℚ)) (iter : Nat) (acc : List (Cand S)) :
    List (Cand S) × Nat :=
  if acc.length < num then
    if iter + 1 > num * 10 then (acc, iter)
    else genLoop pass num attempt (iter + 1)
      (if pass (attempt iter).2 then acc ++ [newCand (attempt iter)] else acc)
  else (acc, iter)
termination_by num * 10 - iter

/-- Largest score first. -/
def byScore {S : Type} (a b : Cand S) : Bool := decide (a.score ≥ b.score)

/-- `run_epoch`, lines 155-192. An empty pool cannot be evaluated (`candidate.py` line 70). Mutation and crossover pick a member of the top-k
list, which fails when it is empty (`candidate.py` line 70) and an attempt is made. -/
def runEpoch {S : Type} (cfg : Cfg) (inp : Inputs S) (st : State S) : Except Stop (State S) := do
  let pool ← sampleLoop cfg inp.samples st.pool
  if pool = [] then throw (.raised .assertion)
  let pool := evaluate inp.score pool
  let sorted := sortBy byScore (pool ++ st.top)
  let top := sorted.take cfg.topK
  if top = [] ∧ (0 < cfg.numMutation ∨ 0 < cfg.numCrossover) then throw (.raised .assertion)
  let mut1 := (genLoop cfg.pass cfg.numMutation inp.mutations 0 []).1
  let cross := (genLoop cfg.pass cfg.numCrossover inp.crossovers 0 []).1
  let next := mut1 ++ cross
  if next.length ≤ cfg.numCandidates then
    pure { st with epoch := st.epoch + 1, pool := next, top := top }
  else throw (.raised .assertion)

/-- Files `search_epoch_<n>.pkl` in the work directory after
`_save_searcher_ckpt`, lines 362-388. -/
def saveCkpt (keep : Int) (epoch : Int) (files : List Int) : List Int :=
  let files := if epoch ∈ files then files else files ++ [epoch]
  if keep > 0 then files.filter (fun s => !(decide (1 ≤ s ∧ s < epoch + 1 - keep))) else files

/-- `_resume`, lines 299-309, on rank 0: the saved epoch, pool and top-k list are
restored, and the saved epoch is subtracted from the number of epochs. Other ranks
keep their state. -/
def resume {S : Type} (rank : Nat) (saved : State S) (st : State S) : State S :=
  if rank = 0 then
    { st with epoch := saved.epoch, pool := saved.pool, top := saved.top,
              maxEpochs := st.maxEpochs - saved.epoch }
  else st

/-- The loop of `run`, lines 147-149: an epoch is started while
`_epoch < _max_epochs`. `inputs` are the outcomes of the epochs to come; the result
also counts the epochs that were run, and is cut short when the inputs run out. -/
def runLoop {S : Type} (cfg : Cfg) : List (Inputs S) → State S → Except Stop (State S × Nat)
  | inputs, st =>
    if st.epoch < st.maxEpochs then
      match inputs with
      | [] => .error .stillSampling
      | i :: rest =>
        match runEpoch cfg i st with
        | .error e => .error e
        | .ok st' =>
          match runLoop cfg rest st' with
          | .error e => .error e
          | .ok (st'', n) => .ok (st'', n + 1)
    else .ok (st, 0)
termination_by inputs _ => inputs.length

end Verif.Evolution
