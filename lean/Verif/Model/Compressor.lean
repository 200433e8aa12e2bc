import Verif.Py
import Verif.Model.Calibration

/-! Model of the compressors of `mmrazor/implementations/quantization/gptq/compressor.py` and
`mmrazor/implementations/pruning/sparse_gpt/compressor.py`: how the layers of a model are
replaced, how the replaced layers are calibrated and compressed, and of
`memory_efficient_forward` and `torch_setting` in
`mmrazor/implementations/pruning/sparse_gpt/utils.py`. -/

namespace Verif.Compressor
open Verif

/-! ## Replacing layers -/

/-- The exact class of a module. Subclasses of `Conv2d` and `Linear`, containers and all other
modules are `other`. Of a linear layer the two sizes are kept. -/
inductive Kind
  | conv
  | linear (inF outF : Nat)
  | gptqConv
  | gptqLinear
  | tritonLinear (bits : Int)
  | sparseConv
  | sparseLinear
  | other
deriving DecidableEq, Repr

/-- A module object: its identity, its class and its weights (a label). -/
structure Obj where
  id : Nat
  kind : Kind
  weight : Nat
deriving DecidableEq, Repr

/-- One way to reach a module: the path from the root, the object it is an attribute of, the
name of the attribute and the object found there. -/
structure Slot where
  path : List String
  owner : Nat
  name : String
  obj : Obj
deriving DecidableEq, Repr

/-- A model: the root object and all paths to its submodules, in the order of the traversal. -/
structure Net where
  root : Obj
  slots : List Slot
deriving DecidableEq, Repr

/-- The first occurrence of every object, as in the `memo` of `nn.Module.named_modules`. -/
def firsts : List Nat → List Slot → List Slot
  | _, [] => []
  | seen, s :: ss => if s.obj.id ∈ seen then firsts seen ss else s :: firsts (s.obj.id :: seen) ss

/-- `named_modules()`. The name of the root is the empty string, which splits into the single
attribute name `''`. -/
def Net.visits (m : Net) : List Slot := firsts [] (⟨[], m.root.id, "", m.root⟩ :: m.slots)

/-- `setattr(owner, name, o)`: every path through that attribute of that object now leads to
`o`; an attribute that does not exist yet is created (only for the root). gptq/compressor.py
lines 18-23. -/
def setAttr (ss : List Slot) (owner : Nat) (name : String) (o : Obj) : List Slot :=
  if ss.any (fun s => s.owner == owner && s.name == name) then
    ss.map fun s => if s.owner = owner ∧ s.name = name then { s with obj := o } else s
  else ss ++ [⟨[name], owner, name, o⟩]

/-- The arguments of `GPTQCompressor.prepare` (lines 55-63; `bits` and `groupsize` are the
keyword arguments passed on, `aq` whether `a_qconfig` is given) and of
`SparseGptCompressor.prepare` (lines 26-29). -/
inductive Cfg
  | gptq (conv linear triton : Bool) (skipped : List (List String)) (bits group : Option Int) (aq : Bool)
  | sparse (conv linear : Bool)
deriving DecidableEq, Repr

/-- Whether the class of a module is a key of the map, gptq/compressor.py lines 66-71,
sparse_gpt/compressor.py lines 32-36. -/
def wants : Cfg → Kind → Bool
  | .gptq c _ _ _ _ _ _, .conv => c
  | .gptq _ l _ _ _ _ _, .linear _ _ => l
  | .sparse c _, .conv => c
  | .sparse _ l, .linear _ _ => l
  | _, _ => false

/-- `name not in skipped_layers`, line 26; SparseGPT skips nothing. -/
def skips : Cfg → List String → Bool
  | .gptq _ _ _ sk _ _ _, p => sk.contains p
  | .sparse _ _, _ => false

/-- What `convert_from` returns: the same object, or a new one of another class. -/
inductive Made
  | same
  | fresh (k : Kind)
deriving DecidableEq, Repr

/-- `TritonGPTQLinear.convert_from` and `__init__`, gptq/ops.py lines 427-482: both keyword
arguments are required and no other is accepted; the number of groups is computed by a division. -/
def makeTriton (bits group : Option Int) (aq : Bool) (inF : Nat) : Except Err Made :=
  if aq then .error .type else
  match bits, group with
  | some b, some g =>
    if b ≠ 2 ∧ b ≠ 4 ∧ b ≠ 8 then .error .notImplemented else
    let g' : Int := if g = -1 then inF else g
    if g' = 0 then .error .zeroDivision
    else if g' < 0 ∧ -g' ≤ inF then .error .runtime
    else .ok (.fresh (.tritonLinear b))
  | _, _ => .error .type

/-- `GPTQLinear.convert_from`, lines 511-527: accepts only `a_fakequant`. -/
def makeGptqLinear (bits group : Option Int) : Except Err Made :=
  if bits.isSome || group.isSome then .error .type else .ok (.fresh .gptqLinear)

/-- The calls of `convert_from`, gptq/compressor.py lines 27-35; sparse_gpt/ops.py lines
241-251: a linear layer with fewer outputs than inputs is returned as it is. -/
def convert : Cfg → Kind → Except Err Made
  | .gptq _ _ _ _ _ _ _, .conv => .ok (.fresh .gptqConv)
  | .gptq _ _ triton _ bits group aq, .linear i _ =>
    if triton then makeTriton bits group aq i else makeGptqLinear bits group
  | .sparse _ _, .conv => .ok (.fresh .sparseConv)
  | .sparse _ _, .linear i o => if o < i then .ok .same else .ok (.fresh .sparseLinear)
  | _, _ => .ok .same

/-- `replace_with_dynamic_ops`, lines 25-36, over the visited modules. New objects are numbered
from `n`; they get the weights of the old ones. An exception leaves what was replaced before. -/
def replaceAll (c : Cfg) : List Slot → List Slot → Nat → List Slot × Option Err
  | [], ss, _ => (ss, none)
  | v :: vs, ss, n =>
    if wants c v.obj.kind && !skips c v.path then
      match convert c v.obj.kind with
      | .error e => (ss, some e)
      | .ok .same => replaceAll c vs (setAttr ss v.owner v.name v.obj) n
      | .ok (.fresh k) => replaceAll c vs (setAttr ss v.owner v.name ⟨n, k, v.obj.weight⟩) (n + 1)
    else replaceAll c vs ss n

/-- A number that no object has. -/
def Net.fresh (m : Net) : Nat := m.slots.foldl (fun a s => max a (s.obj.id + 1)) (m.root.id + 1)

/-- `prepare`. -/
def prepare (c : Cfg) (m : Net) : Net × Option Err :=
  let r := replaceAll c m.visits m.slots m.fresh
  (⟨m.root, r.1⟩, r.2)

/-! ## Calibrating and compressing one layer -/

/-- A replaced layer: the matrix (`none`: the attribute is `None`; `some none`: not a number),
the counter, the number of live hooks, where it is and its weights. -/
structure Lay (W D : Type) where
  mat : Option (Option (Nat → Nat → ℚ))
  n : Nat
  hooks : Nat
  dev : D
  w : W

/-- `_gptq_mix_in_init`, gptq.py lines 43-51. -/
def Lay.new {W D : Type} (dev : D) (w : W) : Lay W D := ⟨none, 0, 0, dev, w⟩

/-- `update_hessian`, lines 107-125: without a matrix `None` has no `to`. -/
def Lay.update {W D : Type} (l : Lay W D) (x : Calibration.Input) : Except Err (Lay W D) :=
  match l.mat with
  | none => .error .attribute
  | some h =>
    match Calibration.update ⟨h, l.n⟩ x with
    | .error e => .error e
    | .ok s => .ok { l with mat := some s.h, n := s.n }

/-- The hooks before a forward pass, lines 127-137: each asserts one input and updates. -/
def Lay.hookRun {W D : Type} : Nat → List Calibration.Input → Lay W D → Except Err (Lay W D)
  | 0, _, l => .ok l
  | k + 1, args, l =>
    match args with
    | [x] =>
      match l.update x with
      | .error e => .error e
      | .ok l' => Lay.hookRun k args l'
    | _ => .error .assertion

/-- What a user does with a replaced layer. `quant` carries the device to compute on. -/
inductive Op (D : Type)
  | init
  | register
  | remove
  | forward (args : List Calibration.Input)
  | compress (dev : D)

/-- The compression of the weights with a matrix (modelled in `GptqLayer` and `SparseGpt`): the
weights that the layer has afterwards, and whether there was no exception; for GPTQ the matrix is
freed at the end. -/
structure Algo (W : Type) where
  run : Option (Nat → Nat → ℚ) → W → W × Bool
  frees : Bool

/-- One step. `init_hessian` (lines 143-155) does not touch the counter, `remove_hessian_hook`
(lines 139-142) removes all hooks; the loop body of `quant` (compressor.py lines 112-129) and
`prune` (sparse_gpt/compressor.py lines 71-87) catches every exception, also the assertion that
there is a matrix (gptq.py line 219), and then skips the move back. -/
def Lay.step {W D : Type} (a : Algo W) (l : Lay W D) : Op D → Except Err (Lay W D)
  | .init => .ok { l with mat := some (some fun _ _ => 0) }
  | .register => .ok { l with hooks := l.hooks + 1 }
  | .remove => .ok { l with hooks := 0 }
  | .forward args => l.hookRun l.hooks args
  | .compress dev =>
    match l.mat with
    | none => .ok { l with dev := dev }
    | some h =>
      match a.run h l.w with
      | (w', false) => .ok { l with dev := dev, w := w' }
      | (w', true) => .ok { l with w := w', mat := if a.frees then none else l.mat }

def Lay.runs {W D : Type} (a : Algo W) (l : Lay W D) : List (Op D) → Except Err (Lay W D)
  | [] => .ok l
  | o :: os =>
    match l.step a o with
    | .error e => .error e
    | .ok l' => l'.runs a os

/-! ## Memory efficient forward -/

/-- A module: its identity, whether its class is in `wrap_modules`, whether it has parameters or
buffers of its own, and its children (modules that occur twice are not modelled here). -/
inductive Tree
  | node (id : Nat) (wrapped own : Bool) (children : List Tree)

def Tree.id : Tree → Nat
  | .node i _ _ _ => i

def Tree.own : Tree → Bool
  | .node _ _ o _ => o

def Tree.children : Tree → List Tree
  | .node _ _ _ cs => cs

mutual
/-- All modules of a tree. -/
def Tree.ids : Tree → List Nat
  | .node i _ _ cs => i :: idsIn cs
def idsIn : List Tree → List Nat
  | [] => []
  | t :: ts => t.ids ++ idsIn ts
end

mutual
/-- `enable_efficient_forward`, utils.py lines 75-92: the modules that get hooks when `t` is a
child, and those below a list of children. -/
def Tree.hooked : Tree → List Nat
  | .node i w o cs => if w || o then [i] else hookedIn cs
def hookedIn : List Tree → List Nat
  | [] => []
  | t :: ts => t.hooked ++ hookedIn ts
end

/-- The call on the whole model. -/
def enable (root : Tree) : List Nat := hookedIn root.children

/-- What happens in the forward of a module: it uses its own tensors or calls a module. -/
inductive Call
  | mk (t : Tree) (body : List Call)
  | use (id : Nat)

/-- Where the tensors are (`true`: on the device). -/
abbrev Place := Nat → Bool

/-- `module.to(...)`: moves the module with everything below. -/
def move (t : Tree) (b : Bool) (p : Place) : Place := fun i => if i ∈ t.ids then b else p i

mutual
/-- Running a call with the hooks of lines 60-72; the log has an entry for every use. -/
def Call.exec (hs : List Nat) : Call → Place → List (Nat × Place) × Place
  | .use i, p => ([(i, p)], p)
  | .mk t body, p =>
    let p1 := if t.id ∈ hs then move t true p else p
    let r := execIn hs body p1
    (r.1, if t.id ∈ hs then move t false r.2 else r.2)
def execIn (hs : List Nat) : List Call → Place → List (Nat × Place) × Place
  | [], p => ([], p)
  | c :: cs, p =>
    let r := c.exec hs p
    let r' := execIn hs cs r.2
    (r.1 ++ r'.1, r'.2)
end

/-- `memory_efficient_forward`, lines 95-124: the hooks that are live on the model, and the
handles the object remembers. -/
structure Ctx where
  live : List Nat
  handles : List Nat
  next : Nat
deriving DecidableEq, Repr

/-- `__enter__` with `k` new hooks (numbered), lines 112-118. -/
def Ctx.enter (enabled : Bool) (k : Nat) (c : Ctx) : Ctx :=
  if enabled then
    let hs := (List.range k).map (c.next + ·)
    ⟨c.live ++ hs, hs, c.next + k⟩
  else c

/-- `__exit__`, lines 120-123. -/
def Ctx.exit (c : Ctx) : Ctx := { c with live := c.live.filter fun h => !c.handles.contains h }

/-! ## Default dtype -/

/-- `torch_setting`, lines 126-140: `new` is the constructor, which reads the current default. -/
structure Setting (T : Type) where
  original : T
  dtype : Option T

def Setting.new {T : Type} (dtype : Option T) (cur : T) : Setting T := ⟨cur, dtype⟩
def Setting.enter {T : Type} (s : Setting T) (cur : T) : T := s.dtype.getD cur
def Setting.exit {T : Type} (s : Setting T) (_cur : T) : T := s.original

/-- `with torch_setting(dtype): body`, for nested uses: the body is a list of settings and of
explicit changes of the default. -/
inductive Block (T : Type)
  | set (d : T)
  | within (dtype : Option T) (body : List (Block T))

mutual
def Block.run {T : Type} : Block T → T → T
  | .set d, _ => d
  | .within d body, cur =>
    let s := Setting.new d cur
    s.exit (runBlocks body (s.enter cur))
def runBlocks {T : Type} : List (Block T) → T → T
  | [], cur => cur
  | b :: bs, cur => runBlocks bs (b.run cur)
end

end Verif.Compressor
