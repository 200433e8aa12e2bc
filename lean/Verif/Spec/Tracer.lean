import Verif.Model.Tracer
import Mathlib.Tactic

/-! Definitions used in the statements of `Verif/Props/Tracer.lean`. -/

namespace Verif.Tracer
open Verif

variable {K : Type} [DecidableEq K]

mutual

/-- For every route from the node to a data input, the layers on it in order; the paths
of the inputs of a concatenation are kept inside it. -/
def allRoutes : G K → List (Path K)
  | .null => [[]]
  | .conv dw n p => (allRoutes p).map (fun r => .layer (if dw then .dwConv else .conv) n :: r)
  | .norm n p => (allRoutes p).map (fun r => .layer .norm n :: r)
  | .linear n p => (allRoutes p).map (fun r => .layer .linear n :: r)
  | .cat id ps => [[.cat id (subRoutes ps)]]
  | .other ps => routesOfAll ps

/-- The routes through any of the nodes. -/
def routesOfAll : List (G K) → List (Path K)
  | [] => []
  | p :: ps => allRoutes p ++ routesOfAll ps

/-- The routes of each of the nodes. -/
def subRoutes : List (G K) → List (List (Path K))
  | [] => []
  | p :: ps => allRoutes p :: subRoutes ps

end

mutual

/-- No linear layer. -/
def linFree : G K → Bool
  | .null => true
  | .conv _ _ p => linFree p
  | .norm _ p => linFree p
  | .linear _ _ => false
  | .cat _ ps => linFreeAll ps
  | .other ps => linFreeAll ps

/-- No linear layer in any of the nodes. -/
def linFreeAll : List (G K) → Bool
  | [] => true
  | p :: ps => linFree p && linFreeAll ps

end

/-- `w` is the list of layers met on some way down from the node (not necessarily to a
data input). -/
inductive Walk : G K → Path K → Prop where
  | stop (g) : Walk g []
  | conv (dw n p w) : Walk p w → Walk (.conv dw n p) (.layer (if dw then .dwConv else .conv) n :: w)
  | norm (n p w) : Walk p w → Walk (.norm n p) (.layer .norm n :: w)
  | linear (n p w) : Walk p w → Walk (.linear n p) (.layer .linear n :: w)
  | cat (id ps) (subs : List (List (Path K))) : subs.length = ps.length →
      (∀ (i : Nat) p sub, ps[i]? = some p → subs[i]? = some sub → ∀ w ∈ sub, Walk p w) →
      Walk (.cat id ps) [.cat id subs]
  | other (ps p w) : p ∈ ps → Walk p w → Walk (.other ps) w

mutual

/-- Names of the convolutions that are run once per forward pass, with repetitions. -/
def onceConvs (shared : K → Bool) : G K → List K
  | .null => []
  | .conv _ n p => (if shared n then [] else [n]) ++ onceConvs shared p
  | .norm _ p => onceConvs shared p
  | .linear _ p => onceConvs shared p
  | .cat _ ps => onceConvsAll shared ps
  | .other ps => onceConvsAll shared ps

/-- The same for several nodes. -/
def onceConvsAll (shared : K → Bool) : List (G K) → List K
  | [] => []
  | p :: ps => onceConvs shared p ++ onceConvsAll shared ps

end

mutual

/-- Names of the normalisation layers. -/
def norms : G K → List K
  | .null => []
  | .conv _ _ p => norms p
  | .norm n p => n :: norms p
  | .linear _ p => norms p
  | .cat _ ps => normsAll ps
  | .other ps => normsAll ps

/-- The same for several nodes. -/
def normsAll : List (G K) → List K
  | [] => []
  | p :: ps => norms p ++ normsAll ps

end

/-- A stack of linear layers, each with a single input, on top of a part without them. -/
inductive TopLin : G K → Prop where
  | base (g) : linFree g = true → TopLin g
  | linear (n g) : TopLin g → TopLin (.linear n g)
  | other (g) : TopLin g → TopLin (.other [g])

/-- Names of the linear layers of the stack that run once per pass. -/
def topNames (shared : K → Bool) : G K → List K
  | .linear n g => if shared n then topNames shared g else n :: topNames shared g
  | .other [g] => topNames shared g
  | _ => []

/-- A path of layers only, as kinds and names. -/
def flat : Path K → List (LKind × K)
  | [] => []
  | .layer k n :: r => (k, n) :: flat r
  | .cat _ _ :: r => flat r

mutual

/-- No concatenation and no linear layer. -/
def plain : G K → Bool
  | .null => true
  | .conv _ _ p => plain p
  | .norm _ p => plain p
  | .linear _ _ => false
  | .cat _ _ => false
  | .other ps => plainAll ps

/-- The same for several nodes. -/
def plainAll : List (G K) → Bool
  | [] => true
  | p :: ps => plain p && plainAll ps

end

mutual

/-- The first layers met below the node. -/
def heads : G K → List (LKind × K)
  | .null => []
  | .conv dw n _ => [(if dw then .dwConv else .conv, n)]
  | .norm n _ => [(.norm, n)]
  | .linear n _ => [(.linear, n)]
  | .cat _ _ => []
  | .other ps => headsAll ps

/-- The same for several nodes. -/
def headsAll : List (G K) → List (LKind × K)
  | [] => []
  | p :: ps => heads p ++ headsAll ps

end

mutual

/-- The pairs of layers such that the input of the first comes from the second, with no
layer in between. -/
def edges : G K → List ((LKind × K) × (LKind × K))
  | .null => []
  | .conv dw n p => (heads p).map (fun b => ((if dw then .dwConv else .conv, n), b)) ++ edges p
  | .norm n p => (heads p).map (fun b => ((.norm, n), b)) ++ edges p
  | .linear n p => (heads p).map (fun b => ((.linear, n), b)) ++ edges p
  | .cat _ ps => edgesAll ps
  | .other ps => edgesAll ps

/-- The same for several nodes. -/
def edgesAll : List (G K) → List ((LKind × K) × (LKind × K))
  | [] => []
  | p :: ps => edges p ++ edgesAll ps

end

mutual

/-- Below every layer some route reaches a data input. -/
def grounded : G K → Bool
  | .null => true
  | .conv _ _ p => !(allRoutes p).isEmpty && grounded p
  | .norm _ p => !(allRoutes p).isEmpty && grounded p
  | .linear _ p => !(allRoutes p).isEmpty && grounded p
  | .cat _ ps => groundedAll ps
  | .other ps => groundedAll ps

/-- The same for several nodes. -/
def groundedAll : List (G K) → Bool
  | [] => true
  | p :: ps => grounded p && groundedAll ps

end

mutual

/-- A convolution run once per pass has one input: wherever it is met, what lies below is
given by `T`. Normalisations have other names. -/
def SameBelow (shared : K → Bool) (T : K → Option (Bool × G K)) : G K → Prop
  | .null => True
  | .conv dw n p => (shared n = false → T n = some (dw, p)) ∧ SameBelow shared T p
  | .norm n p => T n = none ∧ SameBelow shared T p
  | .linear _ p => SameBelow shared T p
  | .cat _ ps => SameBelowAll shared T ps
  | .other ps => SameBelowAll shared T ps

/-- The same for several nodes. -/
def SameBelowAll (shared : K → Bool) (T : K → Option (Bool × G K)) : List (G K) → Prop
  | [] => True
  | p :: ps => SameBelow shared T p ∧ SameBelowAll shared T ps

end

/-- Some listed path has the two layers one after the other. -/
def Listed (res : List (Path K)) (e : (LKind × K) × (LKind × K)) : Prop :=
  ∃ path ∈ res, [PNode.layer e.1.1 e.1.2, PNode.layer e.2.1 e.2.2] <:+: path

/-- What tracing a node adds to the list. -/
def Adds (s t : S K) (new : List (Path K)) : Prop :=
  t.cur = s.cur ∧ t.res = s.res ++ new.map (s.cur ++ ·)

/-- A visited convolution has all pairs below it listed. -/
def DoneAt (T : K → Option (Bool × G K)) (res : List (Path K)) (m : K) : Prop :=
  ∀ dw p, T m = some (dw, p) → ∀ e ∈ edges (.conv dw m p), Listed res e

/-- Visited convolutions are done, or lie above what is being traced. -/
def VisOk (shared : K → Bool) (T : K → Option (Bool × G K)) (s : S K) (size : Nat) : Prop :=
  ∀ m ∈ s.vis, shared m = false → DoneAt T s.res m ∨ ∀ dw p, T m = some (dw, p) → size ≤ sizeOf p

/-- The residual block of `C26_residual_violated` with a normalisation. -/
def resBlock : G Nat :=
  .other [.conv false 3 (.norm 10 (.conv false 2 (.conv false 1 .null))), .conv false 2 (.conv false 1 .null)]

end Verif.Tracer
