import Verif.Spec.ChannelPlain

/-! Graphs of ordinary layers with flattened maps and concatenations. -/

namespace Verif.ChannelNodes
open Verif

/-- What flows along an edge: the channels of one layer; the entries of flattened channels of one layer; or anything else. -/
inductive Form where
  | whole
  | flat
  | joined
  deriving DecidableEq

/-- What a node gives on, if it may be used there: additions need whole layers on all sides, and only the channels or the entries
of a single layer may be flattened. -/
def formOf (done : List Form) (n : Node) : Option Form :=
  match n.kind with
  | .input _ => some .whole
  | .mix _ => some .whole
  | .stop => some .whole
  | .bind => if ∀ i ∈ n.prev, done[i]? = some .whole then some .whole else none
  | .cat => some .joined
  | .expand _ =>
    match n.prev with
    | [i] =>
      match done[i]? with
      | some .whole => some .flat
      | some .flat => some .flat
      | _ => none
    | _ => none
  | .passUnion => n.prev.head?.bind (fun i => done[i]?)
  | .pass => n.prev.head?.bind (fun i => done[i]?)
  | _ => none

/-- The forms along a graph. -/
def forms : List Node → List Form → Option (List Form)
  | [], done => some done
  | n :: rest, done =>
    match formOf done n with
    | none => none
    | some f => forms rest (done ++ [f])

/-- The module of the node takes whole layers in and gives whole layers out. -/
def Direct (fs : List Form) (n : Node) : Prop := n.kind ≠ .cat ∧ (∀ r, n.kind ≠ .expand r) ∧ ∀ i ∈ n.prev, fs[i]? = some .whole

/-- Numbers of channels are positive and within the range the code can count. -/
def SizedKind : Kind → Prop
  | .input n => 0 < n ∧ n ≤ 2 ^ 32
  | .mix n => 0 < n ∧ n ≤ 2 ^ 32
  | _ => True

/-- A graph of ordinary layers: convolutions, linear layers, normalisations, activations, inputs and outputs in any order, additions of whole
layers, flattened layers, and concatenations of anything; a module that is used at several nodes sees whole layers. -/
structure Ordinary (nodes : List Node) (fs : List Form) : Prop where
  form : forms nodes [] = some fs
  sized : ∀ n ∈ nodes, SizedKind n.kind
  start : ∀ n ∈ nodes, n.prev = [] → ∃ k, n.kind = .input k
  shared : nodes.Pairwise (fun n n' => ∀ m, n.module = some m → n'.module = some m → Direct fs n ∧ Direct fs n')

/-- A densely connected network: a convolution that is used twice and added to what it was given, a concatenation of layers, another
convolution behind it, and a flattened map in front of the classifier. -/
def denseNet : List Node :=
  [⟨"x", .input 3, [], none⟩, ⟨"conv1", .mix 4, [0], some 0⟩, ⟨"conv2", .mix 4, [1], some 1⟩, ⟨"conv2again", .mix 4, [2], some 1⟩,
    ⟨"add", .bind, [2, 3], none⟩, ⟨"cat", .cat, [1, 4], none⟩, ⟨"bn", .passUnion, [5], some 2⟩, ⟨"conv3", .mix 5, [6], some 3⟩,
    ⟨"flatten", .expand 4, [7], none⟩, ⟨"fc", .mix 10, [8], some 4⟩, ⟨"out", .stop, [9, 6], none⟩]

/-- Its forms. -/
def denseForms : List Form :=
  [.whole, .whole, .whole, .whole, .whole, .joined, .joined, .whole, .flat, .whole, .whole]

end Verif.ChannelNodes
