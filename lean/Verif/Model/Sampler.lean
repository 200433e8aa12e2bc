import Verif.Py
import Verif.Sort
import Mathlib.Analysis.SpecialFunctions.Trigonometric.Basic

/-! Model of `GreedySamplerTrainLoop` in
`mmrazor/engine/runner/subnet_sampler_loop.py`.

A candidate is a subnet with its score; candidates drawn from the pool are copies of
the pool entry (in the code the same object twice, which gets one score, as here,
since the score is a function of the subnet while the weights do not change). -/

namespace Verif.Sampler
open Verif

/-- The schedule arguments of `__init__`, lines 142-145. -/
structure Schedule where
  start : Int
  stop : Int
  init : ℚ
  max : ℚ

/-- `update_cur_prob` with `prob_schedule='linear'`, lines 248-260. -/
def linearProb (s : Schedule) (it : Int) : Except Err ℚ :=
  if it > s.stop then .ok s.max
  else if it < s.start then .ok s.init
  else
    let all : ℚ := ((s.stop - s.start : Int) : ℚ)
    let cur : ℚ := ((it - s.start : Int) : ℚ)
    if all = 0 then .error .zeroDivision
    else .ok ((s.max - s.init) / all * cur)

/-- `update_cur_prob` with `prob_schedule='consine'`, lines 248-267, over the real
numbers. -/
noncomputable def cosineProb (s : Schedule) (it : Int) : Except Err ℝ :=
  if it > s.stop then .ok s.max
  else if it < s.start then .ok s.init
  else
    let all : ℝ := ((s.stop - s.start : Int) : ℝ)
    let cur : ℝ := ((it - s.start : Int) : ℝ)
    if s.stop - s.start = 0 then .error .zeroDivision
    else .ok ((1 - (s.init : ℝ)) * (1 / 2) * (1 + Real.cos (Real.pi * cur / all)) + s.init)

/-- A pool entry. -/
structure Cand (S : Type) where
  subnet : S
  score : ℚ
  deriving DecidableEq

/-- One round of the sampling loop: the random number, the subnet the supernet would
give with the outcome of the constraint check on it, and the random position in
the pool (reduced modulo its length). -/
structure Draw (S : Type) where
  r : ℚ
  fresh : S
  pass : Bool
  pos : Nat

/-- `get_candidates_with_sample`, lines 272-287. -/
def sampled {S : Type} (prob : ℚ) (pool : List (Cand S)) (draws : List (Draw S)) : List (Cand S) :=
  draws.filterMap (fun d =>
    if d.r ≥ prob ∨ pool.length = 0 then
      if d.pass then some ⟨d.fresh, 0⟩ else none
    else pool[d.pos % pool.length]?)

/-- Best score first. -/
def byScore {S : Type} (a b : Cand S) : Bool := decide (a.score ≥ b.score)

/-- The loop's `candidates` and `top_k_candidates`. -/
structure State (S : Type) where
  pool : List (Cand S)
  top : List (Cand S)

/-- Arguments `num_candidates` and `top_k`. -/
structure Cfg where
  numCandidates : Nat
  topK : Nat

/-- Lines 221-235, executed when the top-k list is empty. -/
def refill {S : Type} (cfg : Cfg) (prob : ℚ) (score : S → ℚ) (draws : List (Draw S)) (st : State S) :
    State S :=
  let all := (st.pool ++ sampled prob st.pool draws).map (fun c => ⟨c.subnet, score c.subnet⟩)
  let pool := (sortBy byScore all).take cfg.numCandidates
  ⟨pool, pool.take cfg.topK⟩

/-- `sample_subnet`, lines 204-246. `top_k_candidates.scores[0]` raises when nothing
was found. -/
def sampleSubnet {S : Type} (cfg : Cfg) (prob : ℚ) (score : S → ℚ) (draws : List (Draw S))
    (st : State S) : Except Err (S × State S) :=
  let st := if st.top.length = 0 then refill cfg prob score draws st else st
  match st.top with
  | [] => .error .index
  | c :: _ => .ok (c.subnet, st)

/-- The subnets trained in consecutive iterations. -/
def trainSubnets {S : Type} (cfg : Cfg) :
    List (ℚ × (S → ℚ) × List (Draw S)) → State S → Except Err (List S)
  | [], _ => .ok []
  | (p, sc, ds) :: rest, st =>
    match sampleSubnet cfg p sc ds st with
    | .error e => .error e
    | .ok (s, st') =>
      match trainSubnets cfg rest st' with
      | .error e => .error e
      | .ok l => .ok (s :: l)

end Verif.Sampler
