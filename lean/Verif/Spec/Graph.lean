import Verif.Model.Graph
import Mathlib.Data.List.Nodup
import Mathlib.Data.List.Perm.Subperm
import Mathlib.Logic.Relation
import Mathlib.Order.WellFounded
import Mathlib.Data.Fintype.EquivFin
import Mathlib.Data.Finset.Card
import Mathlib.Tactic.Linarith

/-! Definitions used in the statements of `Verif/Props/Graph.lean`. -/

namespace Verif.Graph
open Verif

variable {N V : Type} [DecidableEq N] [DecidableEq V]

/-! ### Specification -/

/-- There is a link from `a` to `b`. -/
def Edge (g : G N V) (a b : N) : Prop := b ∈ g.next a

/-- Link bookkeeping is right: names are unique, successors and predecessors agree,
no link is stored twice, and links only join nodes of the graph. -/
structure Wf (g : G N V) : Prop where
  names_nodup : (names g).Nodup
  symm : ∀ a b, b ∈ g.next a ↔ a ∈ g.prev b
  next_nodup : ∀ a, (g.next a).Nodup
  prev_nodup : ∀ a, (g.prev a).Nodup
  closed : ∀ a b, b ∈ g.next a → a ∈ names g ∧ b ∈ names g

/-- A deletion of a node that is linked to itself; every other operation is fine. -/
def SelfLoopDelete (g : G N V) : Op N V → Prop
  | .delete n _ => n ∈ g.next n
  | _ => False

/-- Histories of operations (failing ones included) that never delete a node linked
to itself, and the graphs they lead to. -/
inductive Reach : G N V → Prop
  | start : Reach empty
  | op (g : G N V) (o : Op N V) : Reach g → ¬ SelfLoopDelete g o → Reach (step g o).1

/-- Result of a loop that only changes links. -/
def Good (g g' : G N V) (E : N → N → Prop) : Prop :=
  Wf g' ∧ g'.nodes = g.nodes ∧ ∀ x y, Edge g' x y ↔ E x y

/-- A small graph built by operations: 1 → 2, 1 → 3, 2 → 4, 3 → 4. -/
def exOps : List (Op Nat Nat) :=
  [.add 1 0, .add 2 0, .add 3 0, .add 4 0, .connect 1 0 2 0, .connect 1 0 3 0, .connect 2 0 4 0, .connect 3 0 4 0]

def runOps (ops : List (Op N V)) (g : G N V) : G N V := ops.foldl (fun g o => (step g o).1) g

/-- Loop invariant: what is left to visit, with the number of unvisited predecessors;
visited nodes have only visited predecessors. -/
structure Left (g : G N V) (vs : List N) (deg : List (N × Int)) : Prop where
  keys : deg.map (·.1) = (names g).filter (fun x => decide (x ∉ vs))
  counts : ∀ p ∈ deg, p.2 = (((g.prev p.1).filter (fun x => decide (x ∉ vs))).length : Int)
  down : ∀ x ∈ vs, ∀ p ∈ g.prev x, p ∈ vs

/-- `x` lies on a cycle or is fed, through links, by a node on a cycle. -/
def BehindCycle (g : G N V) (x : N) : Prop :=
  ∃ c, Relation.TransGen (Edge g) c c ∧ Relation.ReflTransGen (Edge g) c x

end Verif.Graph
