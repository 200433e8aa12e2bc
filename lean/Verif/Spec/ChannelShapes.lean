import Verif.Model.ChannelNodes

/-! Numbers of channels in a graph, and the graphs that are refused. -/

namespace Verif.ChannelNodes
open Verif

/-- Why a node refuses its inputs, by their numbers of channels: an ordinary convolution takes one input; additions need equal numbers
of channels; the groups of a grouped layer must divide its channels. -/
def refusal : Kind → List Nat → Option Err
  | .input _, _ => none
  | .mix _, [] => some .notImplemented
  | .mix _, [_] => none
  | .mix _, _ => some .assertion
  | .passUnion, [] => some .index
  | .passUnion, _ => none
  | .pass, [_] => none
  | .pass, _ => some .assertion
  | .bind, [] => some .assertion
  | .bind, n :: ns => if ∀ m ∈ ns, m = n then none else some .assertion
  | .cat, _ => none
  | .expand r, [_] => if r = 0 then some .assertion else none
  | .expand _, _ => some .assertion
  | .stop, _ => none
  | .group g out, [n] => if g = 0 then some .zeroDivision else if g ∣ n ∧ g ∣ out then none else some .assertion
  | .group _ _, _ => some .assertion
  | .groupNorm _ _, [] => some .index
  | .groupNorm g c, n :: _ => if g = 0 then some .zeroDivision else if g * (c / g) = n then none else some .assertion

/-- Numbers of channels of a node: in front of it, behind it, and what it gives on. Activations and poolings stand apart from the
channels they give on. -/
structure Sizes where
  inp : Nat
  out : Nat
  ret : Nat
  deriving DecidableEq

/-- The numbers of channels of a record. -/
def Rec.sizes (r : Rec) : Sizes := ⟨r.inp.length, r.out.length, r.ret.length⟩

/-- The numbers of channels of a node that takes its inputs. -/
def sizesOf : Kind → List Nat → Sizes
  | .input n, _ => ⟨n, n, n⟩
  | .mix out, ns => ⟨ns.headD 0, out, out⟩
  | .passUnion, ns => ⟨ns.headD 0, ns.headD 0, ns.headD 0⟩
  | .pass, ns => ⟨1, 1, ns.headD 0⟩
  | .bind, ns => ⟨ns.headD 0, ns.headD 0, ns.headD 0⟩
  | .cat, ns => ⟨ns.sum, ns.sum, ns.sum⟩
  | .expand r, ns => ⟨ns.headD 0, r * ns.headD 0, r * ns.headD 0⟩
  | .stop, _ => ⟨1, 1, 1⟩
  | .group _ out, ns => ⟨ns.headD 0, out, out⟩
  | .groupNorm _ _, ns => ⟨ns.headD 0, ns.headD 0, ns.headD 0⟩

/-- The numbers of channels that come in. -/
def sizesIn (inputs : Nat) (done : List Sizes) (prev : List Nat) : Option (List Nat) :=
  if prev = [] then some [inputs] else prev.mapM (fun i => (done[i]?).map Sizes.ret)

/-- The numbers of channels along the graph. -/
def sizesAll (inputs : Nat) : List Node → List Sizes → Except Err (List Sizes)
  | [], done => .ok done
  | n :: rest, done =>
    match sizesIn inputs done n.prev with
    | none => .error .attribute
    | some ns =>
      match refusal n.kind ns with
      | some e => .error e
      | none => sizesAll inputs rest (done ++ [sizesOf n.kind ns])

/-- Nodes with the same module have the same numbers of channels. -/
def SizesAgree (l : List (Node × Sizes)) : Prop :=
  l.Pairwise (fun q q' => ∀ m ∈ q.1.module, q'.1.module = some m → q.2.inp = q'.2.inp ∧ q.2.out = q'.2.out)

instance (l : List (Node × Sizes)) : Decidable (SizesAgree l) := by unfold SizesAgree; infer_instance

/-- The numbers of channels of all nodes of a graph, or why it is refused. -/
def shapes (inputs : Nat) (nodes : List Node) : Except Err (List Sizes) :=
  match sizesAll inputs nodes [] with
  | .error e => .error e
  | .ok zs => if SizesAgree (nodes.zip zs) then .ok zs else .error .assertion

end Verif.ChannelNodes
