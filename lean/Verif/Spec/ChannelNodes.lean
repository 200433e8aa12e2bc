import Verif.Model.ChannelNodes

/-! Definitions used in the statements of `Verif/Props/ChannelNodes.lean`. -/

namespace Verif.ChannelNodes
open Verif

/-- Length, unit and ratio of every tensor, and width of every unit; units are named by one of their tensors. -/
structure Lay where
  len : List Nat
  unit : List Nat
  ratio : List Nat
  width : List Nat
  deriving DecidableEq

def Lay.l (L : Lay) (t : Nat) : Nat := L.len.getD t 0
def Lay.u (L : Lay) (t : Nat) : Nat := L.unit.getD t 0
def Lay.r (L : Lay) (t : Nat) : Nat := L.ratio.getD t 0
def Lay.w (L : Lay) (a : Nat) : Nat := L.width.getD a 0
/-- The width of the unit of a tensor. -/
def Lay.n (L : Lay) (t : Nat) : Nat := L.w (L.u t)

/-- A new tensor: a unit by itself. -/
def Lay.new (L : Lay) (n : Nat) : Lay :=
  ⟨L.len ++ [n], L.unit ++ [L.len.length], L.ratio ++ [1], L.width ++ [n]⟩

/-- A new tensor that repeats every channel of tensor `t` `r` times. -/
def Lay.spread (L : Lay) (t r : Nat) : Lay :=
  ⟨L.len ++ [r * L.l t], L.unit ++ [L.u t], L.ratio ++ [r * L.r t], L.width ++ [0]⟩

/-- Two units become one, with `g` free channels. -/
def Lay.join (L : Lay) (a b g : Nat) : Lay :=
  ⟨L.len, L.unit.map (fun c => if c = b then a else c), L.ratio, L.width.set a g⟩

/-- The channels of tensors one after another. -/
def Lay.whole (L : Lay) (v : List Nat) : Tensor := v.flatMap (fun t => elemsOf t (L.l t))

/-- The number of channels of tensors one after another. -/
def Lay.size (L : Lay) (v : List Nat) : Nat := (v.map L.l).sum

/-- Tie the channels of `t` to those of `u`, over and over if `t` is longer: possible if the patterns agree. -/
def Lay.glue (L : Lay) (t u : Nat) : Option Lay :=
  if L.l u ∣ L.l t ∧ (L.n t = 1 ∨ L.n u = 1 ∨ L.r t = L.r u) ∧ (L.n t ∣ L.n u ∨ L.n u ∣ L.n t) then
    some (L.join (L.u t) (L.u u) (Nat.gcd (L.n t) (L.n u)))
  else none

/-- Tie two tensors made of tensors of the same lengths. -/
def Lay.bind : List Nat → List Nat → Lay → Option Lay
  | [], [], L => some L
  | t :: v, u :: w, L =>
    if L.l t = L.l u then
      match L.glue t u with
      | some L' => Lay.bind v w L'
      | none => none
    else none
  | _, _, _ => none

/-- Tie a tensor to several others. -/
def Lay.bindAll (v : List Nat) : List (List Nat) → Lay → Option Lay
  | [], L => some L
  | w :: rest, L =>
    match Lay.bind v w L with
    | some L' => Lay.bindAll v rest L'
    | none => none

/-- Tie every part to the group tensor `g`. -/
def Lay.groups (g : Nat) : List Nat → Lay → Option Lay
  | [], L => some L
  | t :: v, L =>
    match L.glue t g with
    | some L' => Lay.groups g v L'
    | none => none

/-- A new group tensor with `c` channels, and `v` tied to it. -/
def Lay.grouped (L : Lay) (v : List Nat) (groups c : Nat) : Option Lay :=
  if 0 < groups ∧ 0 < c ∧ groups * c = L.size v then Lay.groups L.len.length v (L.new c) else none

/-- Tie all channels of all parts to the single channel of the unit of `e`. -/
def Lay.collapse (e : Nat) : List Nat → Lay → Lay
  | [], L => L
  | t :: v, L => Lay.collapse e v (L.join (L.u t) (L.u e) 1)

/-- The end of the network: everything that comes in is tied together. -/
def Lay.finish (e : Nat) : List (List Nat) → Lay → Lay
  | [], L => L
  | v :: rest, L => Lay.finish e rest (Lay.collapse L.len.length v (L.spread e (L.size v)))

/-- What a node remembers, as lists of tensors. -/
structure PRec where
  inp : List Nat
  out : List Nat
  ret : List Nat
  deriving DecidableEq

/-- The layout after a node, if the node fits in. -/
def planNode (k : Kind) (ins : List (List Nat)) (L : Lay) : Option (PRec × Lay) :=
  let N := L.len.length
  match k, ins with
  | .input n, _ => if 0 < n then some (⟨[N], [N], [N]⟩, L.new n) else none
  | .mix out, [v] => if 0 < out then some (⟨v, [N], [N]⟩, L.new out) else none
  | .passUnion, v :: _ => some (⟨v, v, v⟩, L)
  | .pass, [v] => some (⟨[N], [N + 1], v⟩, (L.new 1).new 1)
  | .bind, v :: rest =>
    match Lay.bindAll v rest L with
    | some L' => some (⟨v, v, v⟩, L')
    | none => none
  | .cat, _ => some (⟨ins.flatten, ins.flatten, ins.flatten⟩, L)
  | .expand r, [[t]] => if 0 < r then some (⟨[t], [N], [N]⟩, L.spread t r) else none
  | .stop, _ => some (⟨[N], [N], [N]⟩, Lay.finish N ins (L.new 1))
  | .group groups out, [v] =>
    match L.grouped v groups (L.size v / groups) with
    | none => none
    | some L1 =>
      match (if 0 < out then (L1.new out).grouped [L1.len.length] groups (out / groups) else none) with
      | none => none
      | some L2 => some (⟨v, [L1.len.length], [L1.len.length]⟩, L2)
  | .groupNorm groups channels, v :: _ =>
    match L.grouped v groups (channels / groups) with
    | none => none
    | some L1 => some (⟨v, v, v⟩, L1)
  | _, _ => none

/-- The results of the predecessors. -/
def planInputs (done : List PRec) : List Nat → Option (List (List Nat))
  | [] => some []
  | i :: rest =>
    match done[i]?, planInputs done rest with
    | some r, some vs => some (r.ret :: vs)
    | _, _ => none

def planStep (inputs : Nat) (n : Node) (done : List PRec) (L : Lay) : Option (PRec × Lay) :=
  if n.prev = [] then (if 0 < inputs then planNode n.kind [[L.len.length]] (L.new inputs) else none)
  else
    match planInputs done n.prev with
    | none => none
    | some vs => planNode n.kind vs L

def planAll (inputs : Nat) : List Node → List PRec → Lay → Option (List PRec × Lay)
  | [], done, L => some (done, L)
  | n :: rest, done, L =>
    match planStep inputs n done L with
    | none => none
    | some (r, L') => planAll inputs rest (done ++ [r]) L'

/-- Nodes with the same module. -/
def planInto (m : Nat) (r : PRec) : List (Node × PRec) → Lay → Option Lay
  | [], L => some L
  | (n, q) :: rest, L =>
    if n.module = some m then
      match Lay.bind r.inp q.inp L with
      | none => none
      | some L1 =>
        match Lay.bind r.out q.out L1 with
        | none => none
        | some L2 => planInto m r rest L2
    else planInto m r rest L

def planMerge (seen : List Nat) : List (Node × PRec) → Lay → Option Lay
  | [], L => some L
  | (n, r) :: rest, L =>
    match n.module with
    | none => planMerge seen rest L
    | some m =>
      if m ∈ seen then planMerge seen rest L
      else
        match planInto m r rest L with
        | none => none
        | some L' => planMerge (m :: seen) rest L'

/-- The layout of a whole graph. -/
def plan (inputs : Nat) (nodes : List Node) : Option (List PRec × Lay) :=
  match planAll inputs nodes [] ⟨[], [], [], []⟩ with
  | none => none
  | some (ps, L) =>
    match planMerge [] (nodes.zip ps) L with
    | none => none
    | some L' => some (ps, L')

/-- The tensors of the layers of a graph. -/
def tensors (ps : List PRec) : List (List Nat) := ps.flatMap (fun p => [p.inp, p.out])

/-- Every unit shows its width somewhere: a unit with one channel in a layer with one channel, any other unit in a layer that has
one channel per channel of the unit. -/
def Regular (ps : List PRec) (L : Lay) : Prop :=
  (∀ v ∈ tensors ps, ∀ t ∈ v, ∃ v' ∈ tensors ps, ∃ u ∈ v', L.u u = L.u t ∧
    (if L.n t = 1 then v' = [u] ∧ L.l u = 1 else L.r u = 1)) ∧ ∀ n ∈ L.len, n ≤ 2 ^ 32

instance (ps : List PRec) (L : Lay) : Decidable (Regular ps L) := by unfold Regular; infer_instance

/-- The channels of a tensor agree when they are at the same place of their groups. -/
def Repeats {β : Type} (φ : Elem → β) (t : Tensor) (groups : Nat) : Prop :=
  ∀ (p q : Nat) (x y : Elem), t[p]? = some x → t[q]? = some y → p % (t.length / groups) = q % (t.length / groups) → φ x = φ y

/-- What a node demands: tensors that are added agree; every channel of a flattened map stands for all its entries; the output of the
network is a whole; the groups of a grouped layer are alike. -/
def NodeOk {β : Type} (φ : Elem → β) (k : Kind) (ins : List Tensor) (r : Rec) : Prop :=
  match k with
  | .bind => ∀ t ∈ ins, t.map φ = r.inp.map φ
  | .expand n => r.out.map φ = (r.inp.map φ).flatMap (List.replicate n)
  | .stop => ∀ t ∈ ins, ∀ x ∈ t, ∀ y ∈ r.out, φ x = φ y
  | .group g _ => Repeats φ r.inp g ∧ Repeats φ r.out g
  | .groupNorm g _ => Repeats φ r.inp g
  | _ => True

/-- The tensors that come into a node from its predecessors. -/
def insOf (recs : List Rec) (n : Node) : List Tensor := n.prev.filterMap (fun i => (recs[i]?).map Rec.ret)

/-- Every node is content, and a layer that is used several times sees the same channels every time. -/
structure Admissible {β : Type} (nodes : List Node) (recs : List Rec) (φ : Elem → β) : Prop where
  node : ∀ q ∈ nodes.zip recs, NodeOk φ q.1.kind (insOf recs q.1) q.2
  shared : ∀ q ∈ nodes.zip recs, ∀ q' ∈ nodes.zip recs, ∀ m, q.1.module = some m → q'.1.module = some m →
    q.2.inp.map φ = q'.2.inp.map φ ∧ q.2.out.map φ = q'.2.out.map φ

/-- The channels of the layers of a graph. -/
def Seen (recs : List Rec) (x : Elem) : Prop := ∃ r ∈ recs, x ∈ r.inp ∨ x ∈ r.out ∨ x ∈ r.ret

/-- A residual block, flattened into a linear layer. -/
def resNet : List Node :=
  [⟨"x", .input 3, [], none⟩, ⟨"conv1", .mix 4, [0], some 0⟩, ⟨"bn", .passUnion, [1], some 1⟩, ⟨"relu", .pass, [2], none⟩,
    ⟨"conv2", .mix 4, [3], some 2⟩, ⟨"add", .bind, [3, 4], none⟩, ⟨"flatten", .expand 2, [5], none⟩,
    ⟨"fc", .mix 10, [6], some 3⟩, ⟨"out", .stop, [7], none⟩]

/-- A block with a grouped convolution, a convolution used twice and a concatenation. -/
def groupNet : List Node :=
  [⟨"x", .input 3, [], none⟩, ⟨"conv1", .mix 6, [0], some 0⟩, ⟨"group", .group 3 6, [1], some 1⟩, ⟨"conv2", .mix 6, [2], some 2⟩,
    ⟨"add", .bind, [1, 3], none⟩, ⟨"conv2", .mix 6, [4], some 2⟩, ⟨"cat", .cat, [4, 5], none⟩, ⟨"conv3", .mix 5, [6], some 3⟩]

/-- A layer that feeds a grouped convolution with two groups and one with three. -/
def twoGroups : List Node :=
  [⟨"x", .input 3, [], none⟩, ⟨"conv", .mix 6, [0], none⟩, ⟨"two", .group 2 4, [1], none⟩, ⟨"three", .group 3 6, [1], none⟩]

/-- Two layers that are concatenated in both orders, and the results added. -/
def bothOrders : List Node :=
  [⟨"x", .input 3, [], none⟩, ⟨"a", .mix 2, [0], none⟩, ⟨"b", .mix 3, [0], none⟩, ⟨"ab", .cat, [1, 2], none⟩,
    ⟨"ba", .cat, [2, 1], none⟩, ⟨"add", .bind, [3, 4], none⟩]

/-- The plan of a graph exists and is regular. -/
def regular (inputs : Nat) (nodes : List Node) : Bool :=
  match plan inputs nodes with
  | some (ps, L) => decide (Regular ps L)
  | none => false

end Verif.ChannelNodes
