import Verif.Py

/-! Model of `mmrazor/models/task_modules/tracer/backward_tracer.py` and `parsers.py`.

An autograd graph is written as the tree of its `next_functions`; a node used twice is
written twice, which makes no difference to the code: what was visited is recorded by
the name of the module only. Finding the module of a layer (lines 34-40 of
`parsers.py`) is not modelled: layers carry its name. The `visited` entries of
concatenations are never read and are left out. -/

namespace Verif.Tracer
open Verif

/-- Kinds of parametrised layers, path.py lines 66-86. -/
inductive LKind where
  | conv | dwConv | norm | linear
  deriving DecidableEq

/-- A node of the autograd graph: no gradient function (a data input), a convolution
(depthwise or not), a normalisation, a linear layer, a concatenation, and any other
operation, `AccumulateGrad` being one without predecessors. -/
inductive G (K : Type) where
  | null
  | conv (depthwise : Bool) (name : K) (parent : G K)
  | norm (name : K) (parent : G K)
  | linear (name : K) (parent : G K)
  | cat (id : K) (parents : List (G K))
  | other (parents : List (G K))

/-- Nodes of a path: layers, and concatenations with the paths of their inputs. -/
inductive PNode (K : Type) where
  | layer (kind : LKind) (name : K)
  | cat (id : K) (subs : List (List (List (PNode K))))

/-- `Path`. -/
abbrev Path (K : Type) := List (PNode K)

/-- `cur_path`, `result_paths` and the visited names. -/
structure S (K : Type) where
  cur : Path K
  res : List (Path K)
  vis : List K

variable {K : Type} [DecidableEq K]

mutual

/-- `backward_trace`, backward_tracer.py lines 43-68, with `parse_conv` (parsers.py
lines 16-57), `parse_linear` (62-101: nothing is popped), `parse_cat` (104-137) and
`parse_norm` (140-169). -/
def trace (shared : K → Bool) : G K → S K → S K
  | .null, s => ⟨s.cur, s.res ++ [s.cur], s.vis⟩
  | .conv dw n p, s =>
    let cur := s.cur ++ [.layer (if dw then .dwConv else .conv) n]
    if n ∈ s.vis ∧ shared n = false then ⟨cur.dropLast, s.res ++ [cur], s.vis⟩
    else
      let t := trace shared p ⟨cur, s.res, n :: s.vis⟩
      ⟨t.cur.dropLast, t.res, t.vis⟩
  | .norm n p, s =>
    let t := trace shared p ⟨s.cur ++ [.layer .norm n], s.res, n :: s.vis⟩
    ⟨t.cur.dropLast, t.res, t.vis⟩
  | .linear n p, s =>
    let cur := s.cur ++ [.layer .linear n]
    if n ∈ s.vis ∧ shared n = false then ⟨cur, s.res ++ [cur], s.vis⟩
    else trace shared p ⟨cur, s.res, n :: s.vis⟩
  | .cat id ps, s =>
    let t := traceSubs shared ps s.vis
    ⟨s.cur, s.res ++ [s.cur ++ [.cat id t.1]], t.2⟩
  | .other ps, s => traceAll shared ps s

/-- The loop over the predecessors, backward_tracer.py lines 63-66. -/
def traceAll (shared : K → Bool) : List (G K) → S K → S K
  | [], s => s
  | p :: ps, s => traceAll shared ps (trace shared p s)

/-- The loop of `parse_cat`, parsers.py lines 128-132: every input starts with a new
path and a new list. -/
def traceSubs (shared : K → Bool) : List (G K) → List K → List (List (Path K)) × List K
  | [], vis => ([], vis)
  | p :: ps, vis =>
    let t := trace shared p ⟨[], [], vis⟩
    let u := traceSubs shared ps t.vis
    (t.res :: u.1, u.2)

end

/-- `trace`, backward_tracer.py lines 177-201, from the gradient function of the loss. -/
def traceModel (shared : K → Bool) (g : G K) : List (Path K) := (trace shared g ⟨[], [], []⟩).res

end Verif.Tracer
