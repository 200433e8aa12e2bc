import Verif.Model.OnnxExport
import Verif.Lemmas.OnnxGraph
import Mathlib.Algebra.Ring.Parity
import Mathlib.Tactic

/-! Definitions used in the statements of `Verif/Props/OnnxExport.lean`. -/

namespace Verif.Onnx
open Verif GptqQuantizer

/-- Fake quantisation of one number in PyTorch: to the nearest step (halves to the even one), shifted,
cut to the range of the integers, shifted back. -/
def fakeRef (s : ℚ) (z qmin qmax : ℤ) (x : ℚ) : ℚ := ((min (max (rhe (x / s) + z) qmin) qmax - z : ℤ) : ℚ) * s

/-- OpenVINO's FakeQuantize of one number, output range equal to the input range. -/
def ovRef (lo hi : ℚ) (levels : ℤ) (x : ℚ) : ℚ :=
  if x ≤ lo then lo else if hi < x then hi
  else (rhe ((x - lo) / (hi - lo) * (levels - 1)) : ℚ) / (levels - 1) * (hi - lo) + lo

/-- ONNX's QuantizeLinear to signed bytes, followed by DequantizeLinear, with zero point 0. -/
def trtRef (s x : ℚ) : ℚ := ((min (max (rhe (x / s)) (-128)) 127 : ℤ) : ℚ) * s

/-- The number lies in the middle between two steps. -/
def Tie (s x : ℚ) : Prop := ∃ k : ℤ, x / s = k + 1 / 2

/-- The place along `axis` of the entry at position `i` of an array. -/
def channelOf (shape : List ℕ) (axis i : ℕ) : ℕ := i / (shape.drop (axis + 1)).prod % shape.getD axis 1

/-- Fake quantisation of an array: with one scale and zero point, or with one per place along an axis. -/
def fakeArray (axis : Option ℕ) (scale zp : List ℚ) (qmin qmax : ℤ) (w : Data) : Data :=
  ⟨w.shape, w.vals.mapIdx fun i a =>
    let c := axis.elim 0 fun ax => channelOf w.shape ax i
    fakeRef (scale.getD c 0) ⌊zp.getD c 0⌋ qmin qmax a⟩

/-- The symbolic operators that stand for PyTorch's fake quantisers, `native_quantizer.py` lines 69-83: the
range comes from attributes or from the last two inputs, the axis is the fourth input. -/
def fakeOp (perChannel : Bool) (range : Option (ℤ × ℤ)) : List Data → Option (List Data)
  | [w, s, z] => range.map fun r => [fakeArray (if perChannel then some 0 else none) s.vals z.vals r.1 r.2 w]
  | [w, s, z, a, b] => if perChannel then none else
      some [fakeArray none s.vals z.vals ⌊a.vals.headD 0⌋ ⌊b.vals.headD 0⌋ w]
  | [w, s, z, ax, a, b] => if perChannel then
      some [fakeArray (some ⌊ax.vals.headD 0⌋.toNat) s.vals z.vals ⌊a.vals.headD 0⌋ ⌊b.vals.headD 0⌋ w] else none
  | _ => none

/-- The position in an array of shape `ls` that is aligned with position `i` of an array of shape `xs`, both
of the same rank. -/
def bindex : List ℕ → List ℕ → ℕ → ℕ
  | _ :: xs, l :: ls, i => (if l = 1 then 0 else i / xs.prod) * ls.prod + bindex xs ls (i % xs.prod)
  | _, _, _ => 0

/-- numpy's broadcasting of an array to a shape: aligned at the last axis. -/
def broadcast (xs : List ℕ) (d : Data) : Option (ℕ → ℚ) :=
  let ls := List.replicate (xs.length - d.shape.length) 1 ++ d.shape
  if d.shape.length ≤ xs.length ∧ (xs.zip ls).all (fun p => p.2 = 1 ∨ p.2 = p.1) then
    some fun i => d.vals.getD (bindex xs ls i) 0
  else none

/-- OpenVINO's FakeQuantize of an array (output range equal to the input range). -/
def ovOp (levels : ℤ) : List Data → Option (List Data)
  | [w, lo, hi, lo', hi'] => if lo' = lo ∧ hi' = hi then do
      let l ← broadcast w.shape lo
      let h ← broadcast w.shape hi
      some [⟨w.shape, w.vals.mapIdx fun i a => ovRef (l i) (h i) levels a⟩]
    else none
  | _ => none

/-- Along which axis an array is quantised by ONNX's operators: none with one scale, otherwise the default, which
is the second axis and must have one place per scale. -/
def linearAxis (shape : List ℕ) (s : Data) : Option (Option ℕ) :=
  if s.vals.length = 1 then some none else if shape[1]? = some s.vals.length then some (some 1) else none

/-- ONNX's QuantizeLinear to signed bytes. -/
def quantizeOp : List Data → Option (List Data)
  | [w, s, z] => (linearAxis w.shape s).map fun axis => [⟨w.shape, w.vals.mapIdx fun i a =>
      let c := axis.elim 0 fun ax => channelOf w.shape ax i
      ((min (max (rhe (a / s.vals.getD c 0) + ⌊z.vals.getD c 0⌋) (-128)) 127 : ℤ) : ℚ)⟩]
  | _ => none

/-- ONNX's DequantizeLinear. -/
def dequantizeOp : List Data → Option (List Data)
  | [q, s, z] => (linearAxis q.shape s).map fun axis => [⟨q.shape, q.vals.mapIdx fun i a =>
      let c := axis.elim 0 fun ax => channelOf q.shape ax i
      (a - ⌊z.vals.getD c 0⌋) * s.vals.getD c 0⟩]
  | _ => none

/-- The operators on arrays; those that the exporter does not touch are arbitrary. -/
def tensors (other : Op → List Data → Option (List Data)) : Interp Data where
  lit d := d
  run
    | .constant (some d), _ => some [d]
    | .identity, [v] => some [v]
    | .fake pc _ r, args => fakeOp pc r args
    | .fakeQuantize levels, args => ovOp levels args
    | .quantizeLinear, args => quantizeOp args
    | .dequantizeLinear, args => dequantizeOp args
    | op, args => other op args

/-- Where a fake quantiser has its scale, zero point, range and axis. -/
inductive Graph.FakeForm (g : Graph) (x s z : String) (qmin qmax : ℤ) : Op → List String → Option ℕ → Prop
  | attributes (perChannel learnable : Bool) : g.FakeForm x s z qmin qmax
      (.fake perChannel learnable (some (qmin, qmax))) [x, s, z] (if perChannel then some 0 else none)
  | tensor (learnable : Bool) (r : Option (ℤ × ℤ)) {a b : String} {sha shb : List ℕ} :
      g.Known a ⟨sha, [(qmin : ℚ)]⟩ → g.Known b ⟨shb, [(qmax : ℚ)]⟩ →
      g.FakeForm x s z qmin qmax (.fake false learnable r) [x, s, z, a, b] none
  | channel (learnable : Bool) (r : Option (ℤ × ℤ)) {ax a b : String} {shx sha shb : List ℕ} {k : ℕ} :
      g.Known ax ⟨shx, [(k : ℚ)]⟩ → g.Known a ⟨sha, [(qmin : ℚ)]⟩ → g.Known b ⟨shb, [(qmax : ℚ)]⟩ →
      g.FakeForm x s z qmin qmax (.fake true learnable r) [x, s, z, ax, a, b] (some k)

/-- A fake quantiser with known parameters: `x` is what it quantises, `y` its output. -/
structure Graph.FakeOf (g : Graph) (n : Node) (axis : Option ℕ) (x y : String) (scale zp : Data) (qmin qmax : ℤ) : Prop where
  outputs : n.outputs = [y]
  form : ∃ s z, g.FakeForm x s z qmin qmax n.op n.inputs axis ∧ g.Known s scale ∧ g.Known z zp
  range : qmin < qmax
  length : scale.vals.length = zp.vals.length
  scales : ∀ s ∈ scale.vals, 0 < s
  zeros : ∀ z ∈ zp.vals, ∃ k : ℤ, z = k ∧ qmin ≤ k ∧ k ≤ qmax

/-- The fake quantiser has one scale; or it quantises a known weight along its first axis, and the first node
that reads the result does so at its second input. -/
def Graph.Aligned (g : Graph) (axis : Option ℕ) (x y : String) (scale : Data) : Prop :=
  (axis = none ∧ scale.vals.length = 1) ∨
  (axis = some 0 ∧ ∃ sh vals, g.Known x ⟨scale.vals.length :: sh, vals⟩ ∧ vals.length = scale.vals.length * sh.prod ∧
    ∃ pre m post, g.nodes = pre ++ m :: post ∧ (∀ k ∈ pre, y ∉ k.inputs) ∧ m.inputs[1]? = some y)

/-- No entry lies in the middle between two steps, unless zero point and smallest integer have the same parity. -/
def NoTies (axis : Option ℕ) (scale zp : Data) (qmin : ℤ) (w : Data) : Prop :=
  ∀ i a, w.vals[i]? = some a → ¬ Tie (scale.vals.getD (axis.elim 0 fun ax => channelOf w.shape ax i) 0) a ∨
    Even (⌊zp.vals.getD (axis.elim 0 fun ax => channelOf w.shape ax i) 0⌋ - qmin)

/-- One of the symbolic fake quantisers. -/
def Node.Fake (n : Node) : Prop := ∃ pc le r, n.op = .fake pc le r

/-- A constant. -/
def Node.Constant (n : Node) : Prop := ∃ v, n.op = .constant v

/-- The node reads the name, and, if it is a fake quantiser, as the tensor to quantise. -/
def Node.ReadsTensor (n : Node) (x : String) : Prop := x ∈ n.inputs ∧ (n.Fake → n.inputs.head? = some x)

/-- The name is not used in the graph. -/
def Graph.Unused (g : Graph) (x : String) : Prop := x ∉ g.inputs ∧ x ∉ g.initNames ∧ ∀ n ∈ g.nodes, x ∉ n.outputs

/-- Every graph output is a graph input, or some node reads it, or the node that writes it reads something
that another node writes; parameters of fake quantisers do not count. -/
def Graph.Deep (g : Graph) : Prop := ∀ y ∈ g.outputs, y ∈ g.inputs ∨ (∃ m ∈ g.nodes, m.ReadsTensor y) ∨
  ∃ n ∈ g.nodes, y ∈ n.outputs ∧ ∃ x, n.ReadsTensor x ∧ ∃ m ∈ g.nodes, x ∈ m.outputs

/-- The constants of the last fake quantiser: each is read by other nodes, too, or it is read once, and an
earlier fake quantiser also reads it. -/
def Graph.Shares (g : Graph) : Prop := ∀ pre f post, g.nodes = pre ++ f :: post → f.Fake → (∀ m ∈ post, ¬ m.Fake) →
  ∀ c ∈ g.nodes, c.Constant → ∀ y ∈ c.outputs, y ∈ f.inputs →
    (∃ m ∈ g.nodes, ¬ m.Fake ∧ y ∈ m.inputs) ∨ (f.inputs.count y = 1 ∧ ∃ m ∈ pre, m.Fake ∧ y ∈ m.inputs)

/-- What the exporter for OpenVINO relies on; `e` are the values of all names. -/
structure Graph.OvReady (g : Graph) (e : String → Option Data) : Prop where
  apart : ∀ x ∈ g.inputs, x ∉ g.initNames
  pads : ∀ n ∈ g.nodes, n.op ≠ .pad
  constants : ∀ c ∈ g.nodes, c.Constant → c.inputs = [] ∧ ∃ y, c.outputs = [y]
  shares : g.Shares
  deep : g.Deep
  fakes : ∀ n ∈ g.nodes, n.Fake → ∃ axis x y scale zp qmin qmax, g.FakeOf n axis x y scale zp qmin qmax ∧
    g.Aligned axis x y scale ∧ (∀ c ∈ g.nodes, c.Constant → x ∉ c.outputs) ∧
    (∀ k ∈ ["input_min", "input_max", "output_min", "output_max"], g.Unused (x ++ "_" ++ k)) ∧
    ∀ w, e x = some w → w.shape ≠ [] ∧ NoTies axis scale zp qmin w
  different : ∀ m ∈ g.nodes, ∀ n ∈ g.nodes, m.Fake → n.Fake → m.inputs.head? = n.inputs.head? → m = n

/-- What the exporter for TensorRT relies on: one scale, zero point 0, all signed bytes. -/
structure Graph.TrtReady (g : Graph) : Prop where
  apart : ∀ x ∈ g.inputs, x ∉ g.initNames
  pads : ∀ n ∈ g.nodes, n.op ≠ .pad
  deep : g.Deep
  fakes : ∀ n ∈ g.nodes, n.Fake → ∃ x y scale zp, g.FakeOf n none x y scale zp (-128) 127 ∧ scale.vals.length = 1 ∧
    (∀ z ∈ zp.vals, z = 0)
  outs : ∀ n ∈ g.nodes, n.Fake → g.Unused (n.name ++ "_quantized_out")
  names : ∀ n ∈ g.nodes, n.Fake → ∀ k ∈ ["_quantized", "_dequantized"],
    n.name ++ k ∉ g.inputs ∧ ∀ m ∈ g.nodes, m.name ≠ n.name ++ k

/-- The other nodes hand on their last argument. -/
def lastArg : Op → List Data → Option (List Data) := fun _ args => args.getLast?.map fun d => [d]

/-- A weight that is quantised row by row and then read as it is, or transposed. -/
def gRows (w scale zp : Data) (transposed : Bool) : Graph :=
  { nodes := [⟨"fw", .fake true false (some (-128, 127)), ["w", "s", "z"], ["q"]⟩] ++
      (if transposed then [⟨"t", .other "Transpose", ["q"], ["t"]⟩, ⟨"mm", .other "MatMul", ["x", "t"], ["y"]⟩]
        else [⟨"mm", .other "MatMul", ["x", "q"], ["y"]⟩]),
    inits := [("w", w), ("s", scale), ("z", zp)], inputs := ["x"], outputs := ["y"] }

/-- One tensor that is quantised twice. -/
def gTwice : Graph :=
  { nodes := [⟨"f1", .fake false false (some (0, 255)), ["x", "s1", "z"], ["a"]⟩,
      ⟨"f2", .fake false false (some (0, 255)), ["x", "s2", "z"], ["b"]⟩, ⟨"add", .other "Add", ["a", "b"], ["y"]⟩],
    inits := [("s1", ⟨[1], [1]⟩), ("s2", ⟨[1], [2]⟩), ("z", ⟨[1], [0]⟩)], inputs := ["x"], outputs := ["y"] }

def feed (d : Data) : String → Option Data := fun x => if x = "x" then some d else none

/-- The outputs of an exported graph. -/
def ran (g : Except Err Graph) (d : Data) : Option (List Data) := match g with
  | .ok g => g.eval (tensors lastArg) (feed d)
  | .error _ => none

/-- Two quantised activations, which share the constants of their range, and a weight that is quantised by rows. -/
def gGood : Graph :=
  { nodes := [⟨"lo", .constant (some ⟨[], [0]⟩), [], ["lo"]⟩, ⟨"hi", .constant (some ⟨[], [255]⟩), [], ["hi"]⟩,
      ⟨"f1", .fake false false none, ["x", "s", "z", "lo", "hi"], ["a"]⟩,
      ⟨"fw", .fake true false (some (-128, 127)), ["w", "sw", "zw"], ["q"]⟩,
      ⟨"conv", .other "Conv", ["a", "q"], ["c"]⟩,
      ⟨"f2", .fake false true none, ["c", "s", "z", "lo", "hi"], ["d"]⟩, ⟨"relu", .other "Relu", ["d"], ["y"]⟩],
    inits := [("s", ⟨[1], [1/2]⟩), ("z", ⟨[1], [0]⟩), ("w", ⟨[2, 1], [1, 2]⟩), ("sw", ⟨[2], [1, 2]⟩), ("zw", ⟨[2], [0, 0]⟩)],
    inputs := ["x"], outputs := ["y"] }

/-- One quantised activation, which reads its range from constants. -/
def gOwn : Graph :=
  { nodes := [⟨"lo", .constant (some ⟨[], [0]⟩), [], ["lo"]⟩, ⟨"hi", .constant (some ⟨[], [255]⟩), [], ["hi"]⟩,
      ⟨"f1", .fake false false none, ["x", "s", "z", "lo", "hi"], ["a"]⟩, ⟨"relu", .other "Relu", ["a"], ["y"]⟩],
    inits := [("s", ⟨[1], [1/2]⟩), ("z", ⟨[1], [0]⟩)], inputs := ["x"], outputs := ["y"] }

/-- A quantised activation between two layers; the range is an attribute. -/
def gBytes (s z : Data) (qmin qmax : ℤ) : Graph :=
  { nodes := [⟨"relu", .other "Relu", ["x"], ["r"]⟩, ⟨"f1", .fake false false (some (qmin, qmax)), ["r", "s", "z"], ["a"]⟩,
      ⟨"conv", .other "Conv", ["a"], ["y"]⟩],
    inits := [("s", s), ("z", z)], inputs := ["x"], outputs := ["y"] }

instance (n : Node) : Decidable n.Fake := match h : n.op with
  | .fake pc le r => .isTrue ⟨pc, le, r, h⟩
  | .identity | .pad | .constant _ | .fakeQuantize _ | .quantizeLinear | .dequantizeLinear | .other _ =>
    .isFalse (by rintro ⟨_, _, _, hv⟩; rw [h] at hv; cases hv)

instance (n : Node) : Decidable n.Constant := match h : n.op with
  | .constant v => .isTrue ⟨v, h⟩
  | .identity | .pad | .fake .. | .fakeQuantize _ | .quantizeLinear | .dequantizeLinear | .other _ =>
    .isFalse (by rintro ⟨v, hv⟩; rw [h] at hv; cases hv)

instance (g : Graph) (x : String) : Decidable (g.Unused x) := by unfold Graph.Unused; infer_instance

/-- A check of `Graph.Shares`. -/
def Graph.sharesCheck (g : Graph) : Prop := ∀ i ∈ List.range g.nodes.length, ∀ f ∈ g.nodes[i]?, f.Fake →
  (∀ m ∈ g.nodes.drop (i + 1), ¬ m.Fake) → ∀ c ∈ g.nodes, c.Constant → ∀ y ∈ c.outputs, y ∈ f.inputs →
    (∃ m ∈ g.nodes, ¬ m.Fake ∧ y ∈ m.inputs) ∨ (f.inputs.count y = 1 ∧ ∃ m ∈ g.nodes.take i, m.Fake ∧ y ∈ m.inputs)

instance (g : Graph) : Decidable g.sharesCheck := by unfold Graph.sharesCheck; infer_instance

/-- The values of `gGood`. -/
def gGood_env : String → Option Data := (evalAll (tensors lastArg) (gGood.start (tensors lastArg) (feed ⟨[1], [3]⟩)) gGood.nodes).getD fun _ => none

/-- A scale that is computed. -/
def gAbs : Graph :=
  { nodes := [⟨"abs", .other "Abs", ["x"], ["s"]⟩, ⟨"f", .fake false false (some (-128, 127)), ["x", "s", "z"], ["y"]⟩],
    inits := [("z", ⟨[], [0]⟩)], inputs := ["x"], outputs := ["y"] }

end Verif.Onnx
