import Verif.Py

/-! Model of the pseudo loss over nested outputs
(`mmrazor/models/task_modules/tracer/loss_calculator/sum_loss_calculator.py`), of the heads with an
auxiliary or distillation output (`mmrazor/models/architectures/heads/darts_subnet_head.py`,
`deit_head.py`), of the connectors that wrap layers (`mmrazor/models/architectures/connectors/`:
convmodule_connector.py, factor_transfer_connectors.py) and of the training mode and the sampling of
`mmrazor/models/algorithms/nas/spos.py`. -/

namespace Verif.Heads
open Verif

/-! ### Pseudo loss -/

/-- The output of a model: a tensor (a name for it and its entries), a list, a tuple, a dictionary or
something else (`None`, a number, a string, a data structure of a downstream package). -/
inductive Out where
  | tensor (name : Nat) (entries : List Int)
  | list (l : List Out)
  | tuple (l : List Out)
  | dict (l : List (String × Out))
  | other
deriving Repr

/-- A loss: its value and the tensors it was computed from, in the order of the additions. Without any
tensor it is the Python number `0`. -/
structure Loss where
  value : Int
  tensors : List Nat
deriving DecidableEq, Repr

/-- `loss + x`: the number zero plus a tensor is a tensor. -/
def Loss.add (a b : Loss) : Loss := { value := a.value + b.value, tensors := a.tensors ++ b.tensors }

mutual
/-- `_sum_of_output`, sum_loss_calculator.py lines 26-43. -/
def sumOf : Out → Except Err Loss
  | .tensor n e => .ok { value := e.sum, tensors := [n] }
  | .list l => sumList { value := 0, tensors := [] } l
  | .tuple l => sumList { value := 0, tensors := [] } l
  | .dict l => sumDict { value := 0, tensors := [] } l
  | .other => .error .notImplemented
/-- The loop over a list or tuple, lines 30-33. -/
def sumList (acc : Loss) : List Out → Except Err Loss
  | [] => .ok acc
  | t :: r =>
    match sumOf t with
    | .error e => .error e
    | .ok x => sumList (acc.add x) r
/-- The loop over the values of a dictionary, lines 35-38. -/
def sumDict (acc : Loss) : List (String × Out) → Except Err Loss
  | [] => .ok acc
  | (_, t) :: r =>
    match sumOf t with
    | .error e => .error e
    | .ok x => sumDict (acc.add x) r
end

/-- `loss.backward()` of the tracer (channel_analyzer.py and backward_tracer.py call it on the result):
the tensors whose histories are walked; a number has no `backward`. -/
def backward (l : Loss) : Except Err (List Nat) :=
  if l.tensors = [] then .error .attribute else .ok l.tensors

/-- `__call__`, sum_loss_calculator.py lines 20-24: the model is put into evaluation mode and stays so;
the modes of its modules afterwards and the loss. -/
def pseudoLoss (modes : List Bool) (run : List Bool → Out) : List Bool × Except Err Loss :=
  let eval := modes.map fun _ => false
  (eval, sumOf (run eval))

/-! ### Heads -/

/-- The annotation of an image: a label, or scores of the classes after a batch augmentation. -/
structure Sample where
  label : Option Nat
  score : Option (List ℚ)
deriving DecidableEq, Repr

/-- The targets of a batch: labels (one dimension) or scores (two). -/
inductive Target where
  | labels (l : List Nat)
  | scores (l : List (List ℚ))
deriving DecidableEq, Repr

/-- Reading an annotation that a sample does not have raises an AttributeError. -/
def readAll {A : Type} (f : Sample → Option A) : List Sample → Except Err (List A)
  | [] => .ok []
  | s :: r =>
    match f s with
    | none => .error .attribute
    | some a =>
      match readAll f r with
      | .error e => .error e
      | .ok l => .ok (a :: l)

/-- The targets, darts_subnet_head.py lines 39-44 (and the same lines of mmcls for the main loss): the
first sample decides. Stacking scores of different lengths raises a RuntimeError. -/
def targets : List Sample → Except Err Target
  | [] => .error .index
  | s :: r =>
    if s.score.isSome then
      match readAll Sample.score (s :: r) with
      | .error e => .error e
      | .ok l => if l.all (fun x => x.length == (l.headD []).length) then .ok (.scores l) else .error .runtime
    else
      match readAll Sample.label (s :: r) with
      | .error e => .error e
      | .ok l => .ok (.labels l)

/-- A head: `F` are features and `S` scores of a batch; the linear layers, the two loss modules (with
the size of the batch as the factor of the average) and the accuracy. -/
structure DartsHead (F S : Type) where
  fc : F → S
  auxLinear : F → S
  size : S → Nat
  lossModule : S → Target → Nat → ℚ
  auxModule : S → Target → Nat → ℚ
  calAcc : Bool
  topk : List Nat
  accuracy : S → List Nat → List Nat → List ℚ

/-- `dict.update` of the losses. -/
def update (a b : List (String × ℚ)) : List (String × ℚ) :=
  b.foldl (fun d p => if d.any (fun q => q.1 == p.1) then d.map (fun q => if q.1 == p.1 then p else q) else d ++ [p]) a

/-- `_get_aux_loss`, darts_subnet_head.py lines 35-60, and `_get_loss` of mmcls with the other loss
module: the losses by name. -/
def getLoss {F S : Type} (h : DartsHead F S) (module : S → Target → Nat → ℚ) (score : S) (samples : List Sample) :
    Except Err (List (String × ℚ)) :=
  match targets samples with
  | .error e => .error e
  | .ok t =>
    let loss := ("loss", module score t (h.size score))
    if h.calAcc then
      match t with
      | .scores _ => .error .assertion
      | .labels l =>
        .ok (update [loss] ((h.topk.zip (h.accuracy score l h.topk)).map fun p => ("accuracy_top-" ++ toString p.1, p.2)))
    else .ok [loss]

/-- `loss`, darts_subnet_head.py lines 62-83: the main loss is taken of the last features
(`LinearClsHead.forward` of mmcls), the auxiliary one of the first (lines 29-33). -/
def DartsHead.loss {F S : Type} (h : DartsHead F S) (feats : List F) (samples : List Sample) :
    Except Err (List (String × ℚ)) :=
  match feats.getLast?, feats.head? with
  | some last, some first =>
    match getLoss h h.lossModule (h.fc last) samples with
    | .error e => .error e
    | .ok main =>
      match getLoss h h.auxModule (h.auxLinear first) samples with
      | .error e => .error e
      | .ok aux => .ok (update main (aux.map fun p => ("aux_head." ++ p.1, p.2)))
  | _, _ => .error .index

/-- Whether a name contains the word `loss`. -/
def hasLoss (s : String) : Bool := (s.toList.tails).any fun t => "loss".toList.isPrefixOf t

/-- `parse_losses` of mmengine: the sum of the entries with `loss` in the name is minimised. -/
def minimised (d : List (String × ℚ)) : ℚ := ((d.filter fun p => hasLoss p.1).map (·.2)).sum

/-- A distilled vision transformer head: the hidden layer if there is one, and the two classifiers. -/
structure DeitHead (T : Type) where
  hidden : Option (T → T)
  head : T → T
  headDist : T → T

/-- `pre_logits` and `forward`, deit_head.py lines 44-70, on the features of the stages, each a list of
tensors: the score returned and the one only computed for a recorder. -/
def DeitHead.forward {T : Type} (h : DeitHead T) (feats : List (List T)) : Except Err (T × T) :=
  match feats.getLast? with
  | none => .error .index
  | some [_, cls, dist] =>
    match h.hidden with
    | none => .ok (h.head cls, h.headDist dist)
    | some f => .ok (h.head (f cls), h.headDist (f dist))
  | some _ => .error .value

/-! ### Connectors -/

/-- The layers of a convolution module. -/
inductive Layer where
  | conv
  | norm
  | act
deriving DecidableEq, Repr

/-- A `ConvModule` of mmcv: the values of its layers and whether the activation works in place
(`inplace=True` is the default and is handed to the activation if its class takes it). mmcv only takes
arrangements of the three layers as an order. -/
structure ConvModule (V : Type) where
  order : List Layer
  padding : Option (V → V)
  conv : V → V
  norm : Option (V → V)
  act : Option (V → V)
  inplace : Bool

/-- The memory of tensors: the number of cells in use and their values; a tensor is a cell. -/
structure Heap (V : Type) where
  used : Nat
  val : Nat → V

/-- A layer that makes a new tensor. -/
def Heap.fresh {V : Type} (m : Heap V) (f : V → V) (x : Nat) : Heap V × Nat :=
  ({ used := m.used + 1, val := fun i => if i = m.used then f (m.val x) else m.val i }, m.used)

/-- A layer that works in place. -/
def Heap.inPlace {V : Type} (m : Heap V) (f : V → V) (x : Nat) : Heap V × Nat :=
  ({ m with val := fun i => if i = x then f (m.val x) else m.val i }, x)

/-- One round of the loop, convmodule_connector.py lines 83-91. -/
def ConvModule.step {V : Type} (c : ConvModule V) (s : Heap V × Nat) : Layer → Heap V × Nat
  | .conv =>
    match c.padding with
    | some p => let t := s.1.fresh p s.2; t.1.fresh c.conv t.2
    | none => s.1.fresh c.conv s.2
  | .norm =>
    match c.norm with
    | some f => s.1.fresh f s.2
    | none => s
  | .act =>
    match c.act with
    | some f => if c.inplace then s.1.inPlace f s.2 else s.1.fresh f s.2
    | none => s

/-- `forward_train`, convmodule_connector.py lines 77-92. -/
def ConvModule.run {V : Type} (c : ConvModule V) (s : Heap V × Nat) : Heap V × Nat := c.order.foldl c.step s

/-- The sizes of a feature map. -/
structure Shape where
  channels : Nat
  height : Nat
  width : Nat
deriving DecidableEq, Repr

/-- The layers of the encoder and decoder, factor_transfer_connectors.py lines 54-73. -/
inductive FtLayer where
  | conv (i o kernel stride padding : Nat)
  | convT (i o kernel stride padding : Nat)
  | bn (c : Nat)
  | empty
  | leaky
deriving DecidableEq, Repr

/-- The sizes after a layer: another number of channels than the layer takes, a kernel larger than the
padded map or an empty result raise a RuntimeError. -/
def FtLayer.shape : FtLayer → Shape → Except Err Shape
  | .conv i o k st p, s =>
    if s.channels ≠ i ∨ s.height + 2 * p < k ∨ s.width + 2 * p < k then .error .runtime
    else .ok { channels := o, height := (s.height + 2 * p - k) / st + 1, width := (s.width + 2 * p - k) / st + 1 }
  | .convT i o k st p, s =>
    if s.channels ≠ i ∨ (s.height - 1) * st + k ≤ 2 * p ∨ (s.width - 1) * st + k ≤ 2 * p then .error .runtime
    else .ok { channels := o, height := (s.height - 1) * st + k - 2 * p, width := (s.width - 1) * st + k - 2 * p }
  | .bn c, s => if s.channels ≠ c then .error .runtime else .ok s
  | .empty, s => .ok s
  | .leaky, s => .ok s

/-- `nn.Sequential`. -/
def seqShape : List FtLayer → Shape → Except Err Shape
  | [], s => .ok s
  | l :: r, s =>
    match l.shape s with
    | .error e => .error e
    | .ok t => seqShape r t

/-- The normalisation that is asked for or an empty `nn.Sequential()`. -/
def norm? (use : Bool) (c : Nat) : FtLayer := if use then .bn c else .empty

/-- The encoder, lines 54-63 (and lines 120-129 of the student's). -/
def encoder (i o : Nat) (use : Bool) : List FtLayer :=
  [.conv i i 3 1 1, norm? use i, .leaky, .conv i o 3 1 1, norm? use o, .leaky, .conv o o 3 1 1, norm? use o, .leaky]

/-- The decoder, lines 64-73. -/
def decoder (i o : Nat) (use : Bool) : List FtLayer :=
  [.convT o o 3 1 1, norm? use o, .leaky, .convT o i 3 1 1, norm? use i, .leaky, .convT i i 3 1 1, norm? use i, .leaky]

/-- `Paraphraser.__init__` (line 38: the phase is asserted) and `forward` (lines 75-96): the sizes of the
result and whether a gradient reaches the parameters of the connector. -/
def paraphrase (i o : Nat) (use : Bool) (phase : String) (s : Shape) : Except Err (Shape × Bool) :=
  if phase = "train" then
    match seqShape (encoder i o use) s with
    | .error e => .error e
    | .ok t => .ok (t, false)
  else if phase = "pretrain" then
    match seqShape (encoder i o use) s with
    | .error e => .error e
    | .ok t =>
      match seqShape (decoder i o use) t with
      | .error e => .error e
      | .ok u => .ok (u, true)
  else .error .assertion

/-- `Translator`, lines 99-133: the default of `use_bn` is the caller's. -/
def translate (i o : Nat) (use : Bool) (s : Shape) : Except Err (Shape × Bool) :=
  match seqShape (encoder i o use) s with
  | .error e => .error e
  | .ok t => .ok (t, true)

/-! ### Single path one shot -/

/-- A module of the algorithm: whether it belongs to the architecture, whether it is a batch
normalisation, its mode and (of a batch normalisation) its running mean. -/
structure Mod where
  inArch : Bool
  isNorm : Bool
  training : Bool
  mean : ℚ
deriving DecidableEq, Repr

/-- `train`, spos.py lines 89-98. -/
def setMode (normTraining mode : Bool) (l : List Mod) : List Mod :=
  let l1 := l.map fun m => { m with training := mode }
  if normTraining && !mode then l1.map fun m => if m.inArch && m.isNorm then { m with training := true } else m
  else l1

/-- A batch passing through the modules: a normalisation in training mode moves its running mean to the
mean of the batch (the same `x` for all, momentum `m`); others keep theirs. -/
def pass (m x : ℚ) (l : List Mod) : List Mod :=
  l.map fun a => if a.isNorm && a.training then { a with mean := (1 - m) * a.mean + m * x } else a

/-- Evaluation: evaluation mode, then the batches. -/
def evaluate (normTraining : Bool) (m : ℚ) (batches : List ℚ) (l : List Mod) : List Mod :=
  batches.foldl (fun s x => pass m x s) (setMode normTraining false l)

/-- The state of the search space: the current choices by unit. -/
abbrev Choices := List (String × String)

/-- `set_choices` of the mutator: every unit named by the choices takes it. -/
def setChoices (c cur : Choices) : Choices :=
  cur.map fun p => (p.1, ((c.find? fun q => q.1 == p.1).map (·.2)).getD p.2)

/-- `sample_choices`: one candidate per unit, drawn by `draw` (a choice of an index). -/
def sampleChoices (cands : List (String × List String)) (draw : String → Nat) : Choices :=
  cands.map fun p => (p.1, p.2.getD (draw p.1 % p.2.length) "")

/-- `loss`, spos.py lines 80-87: the choices are drawn and set, and the architecture computes its loss
under them. -/
def sposLoss {L : Type} (cands : List (String × List String)) (draw : String → Nat) (run : Choices → L) (cur : Choices) :
    L × Choices :=
  let next := setChoices (sampleChoices cands draw) cur
  (run next, next)

end Verif.Heads
