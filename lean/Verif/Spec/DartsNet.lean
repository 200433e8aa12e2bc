import Verif.Model.DartsNet
import Verif.Spec.SearchOps

/-! Definitions used in the statements of `Verif/Props/DartsNet.lean`. -/

namespace Verif.DartsNet
open Verif SearchOps

/-- Number of reduction cells among the first `n` cells of `L`: cells `⌊L / 3⌋` and
`⌊2 L / 3⌋`. -/
def reductions (L n : ℕ) : ℕ :=
  ((List.range n).filter (fun j => decide (j = L / 3 ∨ j = 2 * L / 3))).length

/-- The operations of DARTS. -/
def IsDarts (op : Op) : Prop :=
  op ∈ [.poolBN 3, .dilConv 3, .dilConv 5, .sepConv 3, .sepConv 5, .skip, .zero]

/-- For each node at least one edge from an earlier node, with an operation of
DARTS; node number `d` has `d + 2` predecessors. -/
def GoodChoice (nodes : ℕ) (ch : List (List (ℕ × Op))) : Prop :=
  ch.length = nodes
  ∧ ∀ (d : ℕ) node, ch[d]? = some node → node ≠ [] ∧ ∀ e ∈ node, e.1 < d + 2 ∧ IsDarts e.2

/-- The promised output of cell `i` on an image of size `h` × `w`. -/
def cellShape (g : Cfg) (h w i : ℕ) : Shape :=
  ⟨g.nodes * (g.base * 2 ^ reductions g.L (i + 1)), h / 2 ^ reductions g.L (i + 1),
    w / 2 ^ reductions g.L (i + 1)⟩

/-- The promised auxiliary output. -/
def auxShape (g : Cfg) (training : Bool) (h w : ℕ) : List Shape :=
  match g.aux with
  | none => []
  | some (_, out) =>
    if training then
      [⟨out, ((cellShape g h w (2 * g.L / 3)).h - 5) / 2,
        ((cellShape g h w (2 * g.L / 3)).w - 5) / 2⟩]
    else []

def exCfg : Cfg := ⟨3, 16, 3, 2, 3, [0, 2], some (128, 768)⟩

def exChoice : List (List (List (ℕ × Op))) :=
  List.replicate 3 [[(0, .skip), (1, .sepConv 3)], [(2, .poolBN 3), (0, .dilConv 5)]]

end Verif.DartsNet
