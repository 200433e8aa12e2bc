/-
Model of the backbone of DARTS
(/repo/mmrazor/models/architectures/backbones/darts_backbone.py), on the shapes
of feature maps (see SearchOps).

The mixed operation of an edge and the choice of edges of a node are modelled by
the list of the pairs of edge and operation that contribute to the node: all of
them in the supernet (the softmax weights do not change shapes), the chosen ones
in a subnet (see C53 for the choice itself).
-/
import Verif.Model.SearchOps

namespace Verif.DartsNet
open Verif SearchOps

/-- The arguments of a cell. -/
structure CellCfg where
  c : ℕ
  prev : ℕ
  pprev : ℕ
  red : Bool
  prevRed : Bool
  deriving DecidableEq, Repr

/-- `i in [num_layers // 3, 2 * num_layers // 3]` (darts_backbone.py 344). -/
def reduces (L i : ℕ) : Bool := i = L / 3 || i = 2 * L / 3

/-- The loop of the constructor (darts_backbone.py 342-362) for the `n` cells from
number `i` on: `out` is `self.out_channels`, `red` the last `reduction`. -/
def cellsFrom (L nodes : ℕ) : ℕ → ℕ → ℕ → ℕ → ℕ → Bool → List CellCfg
  | 0, _, _, _, _, _ => []
  | n + 1, i, out, prev, pprev, red =>
    let prevRed := red
    let out := if reduces L i then out * 2 else out
    let red := reduces L i
    ⟨out, prev, pprev, red, prevRed⟩
      :: cellsFrom L nodes n (i + 1) out (out * nodes) prev red

/-- The settings of a backbone; `aux` gives the channels of the auxiliary
module. -/
structure Cfg where
  cin : ℕ
  base : ℕ
  L : ℕ
  nodes : ℕ
  mult : ℕ
  outIdx : List ℤ
  aux : Option (ℕ × ℕ)
  deriving DecidableEq, Repr

/-- The constructor (darts_backbone.py 289-362): `out_indices[-1]` must be the last
cell (an empty tuple raises IndexError). -/
def make (g : Cfg) : Except Err (List CellCfg) :=
  match g.outIdx.getLast? with
  | none => .error .index
  | some z =>
    if z = (g.L : ℤ) - 1 then
      .ok (cellsFrom g.L g.nodes g.L 0 g.base (g.mult * g.base) (g.mult * g.base) false)
    else .error .assertion

/-- An edge of a node (darts_backbone.py 126-139): the first two edges of a
reduction cell have stride 2. -/
def edgeRun (c : ℕ) (red : Bool) (tensors : List Shape) (e : ℕ × Op) : Except Err Shape :=
  match tensors[e.1]? with
  | none => .error .index
  | some x => e.2.run c c (if e.1 < (if red then 2 else 0) then 2 else 1) x

/-- Sum of the outputs of the edges. -/
def sumAll : List Shape → Except Err Shape
  | [] => .error .runtime
  | y :: ys => ys.foldlM add y

/-- `Node.forward` (darts_backbone.py 145-148). -/
def nodeRun (c : ℕ) (red : Bool) (tensors : List Shape) (choice : List (ℕ × Op)) :
    Except Err Shape := do
  let ys ← choice.mapM (edgeRun c red tensors)
  sumAll ys

/-- The loop over the nodes (darts_backbone.py 218-220). -/
def nodesRun (c : ℕ) (red : Bool) : List Shape → List (List (ℕ × Op)) → Except Err (List Shape)
  | ts, [] => .ok ts
  | ts, ch :: l => do
    let y ← nodeRun c red ts ch
    nodesRun c red (ts ++ [y]) l

/-- `torch.cat` of a list along the channels; no tensors are an error. -/
def catAll : List Shape → Except Err Shape
  | [] => .error .runtime
  | y :: ys => ys.foldlM cat y

/-- The layer before the first input (darts_backbone.py 192-197):
FactorizedReduce (23-57) computes the same as a skip connection of stride 2. -/
def preproc0 (g : CellCfg) (s0 : Shape) : Except Err Shape :=
  if g.prevRed then skipRun g.pprev g.c 2 s0 else conv g.pprev g.c 1 1 0 1 s0

/-- `Cell.forward` (darts_backbone.py 214-222). -/
def cellRun (g : CellCfg) (choice : List (List (ℕ × Op))) (s0 s1 : Shape) :
    Except Err Shape := do
  let a ← preproc0 g s0
  let b ← conv g.prev g.c 1 1 0 1 s1
  let ts ← nodesRun g.c g.red [a, b] choice
  catAll (ts.drop 2)

/-- AuxiliaryModule (darts_backbone.py 236-257). -/
def auxRun (cin mid out : ℕ) (x : Shape) : Except Err Shape := do
  let y ← pool 5 2 0 x
  let y ← conv cin mid 1 1 0 1 y
  conv mid out 2 1 0 1 y

/-- The auxiliary output at cell `i` (darts_backbone.py 314-323, 358-362,
371-373); the module is built for the channels of that cell. -/
def auxAt (g : Cfg) (training : Bool) (i : ℕ) (outs : List Shape) (s1 : Shape) :
    Except Err (List Shape) :=
  match g.aux with
  | none => .ok outs
  | some (mid, out) =>
    if i = 2 * g.L / 3 ∧ training = true then do
      let a ← auxRun s1.c mid out s1
      .ok (a :: outs)
    else .ok outs

/-- The loop of `forward` (darts_backbone.py 364-375). -/
def cellsRun (g : Cfg) (training : Bool) : ℕ → List (CellCfg × List (List (ℕ × Op))) →
    Shape → Shape → List Shape → Except Err (List Shape)
  | _, [], _, _, outs => .ok outs
  | i, (cg, ch) :: l, s0, s1, outs => do
    let y ← cellRun cg ch s0 s1
    let outs := if (i : ℤ) ∈ g.outIdx then outs ++ [y] else outs
    let outs ← auxAt g training i outs y
    cellsRun g training (i + 1) l s1 y outs

/-- `forward`: the stem is a 3x3 convolution. -/
def run (g : Cfg) (cells : List CellCfg) (training : Bool) (choice : List (List (List (ℕ × Op))))
    (x : Shape) : Except Err (List Shape) := do
  let s ← conv g.cin (g.mult * g.base) 3 1 1 1 x
  cellsRun g training 0 (cells.zip choice) s s []

end Verif.DartsNet
