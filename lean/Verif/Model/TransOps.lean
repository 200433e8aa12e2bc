import Verif.Py

/-! Model of the dynamic layer norm (`mmrazor/models/architectures/dynamic_ops/bricks/dynamic_norm.py` lines 205-260 and
`mixins/dynamic_layernorm_mixins.py`), of the dynamic patch embedding (`bricks/dynamic_embed.py`), of the input resizers
(`ops/function.py`, `bricks/dynamic_function.py`, `mixins/dynamic_mixins.py` lines 415-455), of the searchable image
classifier (`classifiers/image.py`) and of the replacement of layers by dynamic ones
(`mutables/mutable_channel/units/mutable_channel_unit.py` lines 208-235). -/

namespace Verif.TransOps
open Verif

/-- Indexing by a boolean mask, PyTorch: the lengths must agree. -/
def keep {A : Type} (m : List Bool) (l : List A) : Except Err (List A) :=
  if m.length = l.length then .ok (((m.zip l).filter (·.1)).map (·.2)) else .error .index

/-- The number of active channels of a mask. -/
def active (m : List Bool) : Nat := m.count true

/-! ### Layer norm -/

/-- `F.layer_norm`, PyTorch, for one token: `norm` normalises the features, `ap` applies a weight and a bias. -/
def layerNorm {A X : Type} (norm : List X → List X) (ap : A → X → X) (n : Nat) (affine : Option (List A)) (x : List X) :
    Except Err (List X) :=
  if x.length ≠ n then .error .runtime
  else
    match affine with
    | none => .ok (norm x)
    | some p => if p.length ≠ n then .error .runtime else .ok (List.zipWith ap p (norm x))

/-- `DynamicLayerNorm`: the normalised shape, weights and biases, the current mask of the registered mutable, and whether
`check_if_mutables_fixed` accepts it. -/
structure LN (A : Type) where
  normalized : Nat
  affine : Option (List A)
  mask : Option (List Bool)
  fixed : Bool
deriving DecidableEq, Repr

/-- `_register_mutable_num_features`, dynamic_layernorm_mixins.py lines 57-86. -/
def LN.registerFeatures {A : Type} (l : LN A) (m : List Bool) (fixed : Bool) : Except Err (LN A) :=
  match l.affine with
  | none => .error .runtime
  | some _ => if m.length ≠ l.normalized then .error .value else .ok { l with mask := some m, fixed := fixed }

/-- `register_mutable_attr`, lines 34-50. -/
def LN.register {A : Type} (l : LN A) (attr : String) (m : List Bool) (fixed : Bool) : Except Err (LN A) :=
  if attr = "in_channels" ∨ attr = "out_channels" then
    match l.mask with
    | some _ => .ok l
    | none => l.registerFeatures m fixed
  else if attr = "num_features" then l.registerFeatures m fixed
  else .error .assertion

/-- `get_dynamic_params`, lines 88-122. -/
def LN.params {A : Type} (l : LN A) : Except Err (Option (List A)) :=
  match l.affine with
  | none => .ok none
  | some p =>
    match l.mask with
    | none => .ok (some p)
    | some m =>
      match keep m p with
      | .error e => .error e
      | .ok q => .ok (some q)

/-- `forward`, dynamic_norm.py lines 244-260, for an input with `dim` dimensions: the output and the layer afterwards. -/
def LN.forward {A X : Type} (norm : List X → List X) (ap : A → X → X) (dim : Nat) (x : List X) (l : LN A) :
    Except Err (List X) × LN A :=
  if dim ≠ 3 then (.error .value, l)
  else
    match l.params with
    | .error e => (.error e, l)
    | .ok p =>
      match l.mask with
      | none => (.error .key, l)
      | some m => (layerNorm norm ap (active m) p x, { l with normalized := active m })

/-- A static `LayerNorm`. -/
structure StaticLN (A : Type) where
  normalized : Nat
  affine : Option (List A)
deriving DecidableEq, Repr

/-- `LayerNorm.forward`, PyTorch. -/
def StaticLN.forward {A X : Type} (norm : List X → List X) (ap : A → X → X) (x : List X) (l : StaticLN A) : Except Err (List X) :=
  layerNorm norm ap l.normalized l.affine x

/-- `to_static_op`, dynamic_layernorm_mixins.py lines 124-147. -/
def LN.toStatic {A : Type} (l : LN A) : Except Err (StaticLN A) :=
  if l.mask.isSome ∧ l.fixed = false then .error .runtime
  else
    match l.params with
    | .error e => .error e
    | .ok p =>
      match l.mask with
      | some m => .ok ⟨active m, p⟩
      | none => .ok ⟨l.normalized, p⟩

/-- What happens to a layer in use: its mutable takes another mask, or it is run. -/
inductive Use (X : Type)
  | choose (m : List Bool)
  | run (dim : Nat) (x : List X)

/-- The layer after some uses. -/
def LN.after {A X : Type} (norm : List X → List X) (ap : A → X → X) : LN A → List (Use X) → LN A
  | l, [] => l
  | l, .choose m :: r => LN.after norm ap { l with mask := l.mask.map fun _ => m } r
  | l, .run d x :: r => LN.after norm ap (l.forward norm ap d x).2 r

/-! ### Patch embedding -/

/-- A patch embedding: the projection (one kernel and possibly one bias for each output channel, stride, padding) and the norm. -/
structure Embed (W B N : Type) where
  img : Nat
  stride : Nat
  padding : Nat
  weight : List W
  bias : Option (List B)
  norm : Option N
deriving DecidableEq, Repr

/-- `DynamicPatchEmbed`: with the mask of the registered mutable. -/
structure DynEmbed (W B N : Type) where
  base : Embed W B N
  mask : Option (List Bool)
  fixed : Bool
deriving DecidableEq, Repr

/-- A convolution: one output channel for every kernel. `corr s p w x` is the response of a kernel, `add` adds a bias. -/
def conv {W B X Y : Type} (corr : Nat → Nat → W → X → Y) (add : B → Y → Y) (s p : Nat) (w : List W) (b : Option (List B)) (x : X) : List Y :=
  match b with
  | none => w.map fun v => corr s p v x
  | some b => List.zipWith add b (w.map fun v => corr s p v x)

/-- The norm of an embedding, if there is one: it has a fixed width here, `width n` for the norm `n`. -/
def applyNorm {N Y : Type} (run : N → List Y → Except Err (List Y)) (n : Option N) (y : List Y) : Except Err (List Y) :=
  match n with
  | none => .ok y
  | some n => run n y

/-- `PatchEmbed.forward` (mmcls). -/
def Embed.forward {W B N X Y : Type} (corr : Nat → Nat → W → X → Y) (add : B → Y → Y) (run : N → List Y → Except Err (List Y))
    (e : Embed W B N) (x : X) : Except Err (List Y) :=
  applyNorm run e.norm (conv corr add e.stride e.padding e.weight e.bias x)

/-- `_register_embed_dims`, dynamic_embed.py lines 75-86. -/
def DynEmbed.register {W B N : Type} (e : DynEmbed W B N) (m : List Bool) (fixed : Bool) : Except Err (DynEmbed W B N) :=
  if m.length ≠ e.base.weight.length then .error .value else .ok { e with mask := some m, fixed := fixed }

/-- The kept biases. -/
def keepBias {B : Type} (m : List Bool) (b : Option (List B)) : Except Err (Option (List B)) :=
  match b with
  | none => .ok none
  | some b =>
    match keep m b with
    | .error e => .error e
    | .ok c => .ok (some c)

/-- `_get_dynamic_params`, lines 88-98. -/
def DynEmbed.params {W B N : Type} (e : DynEmbed W B N) : Except Err (List W × Option (List B)) :=
  match e.mask with
  | none => .ok (e.base.weight, e.base.bias)
  | some m =>
    match keep m e.base.weight with
    | .error r => .error r
    | .ok w =>
      match keepBias m e.base.bias with
      | .error r => .error r
      | .ok b => .ok (w, b)

/-- `forward`, lines 139-154. -/
def DynEmbed.forward {W B N X Y : Type} (corr : Nat → Nat → W → X → Y) (add : B → Y → Y) (run : N → List Y → Except Err (List Y))
    (e : DynEmbed W B N) (x : X) : Except Err (List Y) :=
  match e.params with
  | .error r => .error r
  | .ok (w, b) => applyNorm run e.base.norm (conv corr add 16 e.base.padding w b x)

/-- `to_static_op`, lines 100-115: a new embedding with stride 16, no padding and no norm. -/
def DynEmbed.toStatic {W B N : Type} (e : DynEmbed W B N) : Except Err (Embed W B N) :=
  if e.mask.isSome ∧ e.fixed = false then .error .runtime
  else
    match e.mask with
    | none => .error .key
    | some _ =>
      match e.params with
      | .error r => .error r
      | .ok (_, none) => .error .attribute
      | .ok (w, some b) => .ok ⟨e.base.img, 16, 0, w, some b, none⟩

/-- `convert_from`, lines 122-137: the projection and the norm are the given ones. -/
def DynEmbed.convert {W B N : Type} (e : Embed W B N) : DynEmbed W B N := ⟨e, none, true⟩

/-! ### Input resizers -/

/-- A value for `size`: nothing, a size, or the typing object that is the default of `DynamicInputResizer.forward`. -/
inductive Size
  | none
  | given (s : List Nat)
  | typing
deriving DecidableEq, Repr

/-- `functional.interpolate`, PyTorch: what is checked before resizing. `align` is `align_corners` if it is not `None`. -/
def interpolate (mode : String) (align : Option Bool) (size : Size) (scale : Option ℚ) : Except Err (List Nat ⊕ ℚ) :=
  if ["nearest", "area", "nearest-exact"].contains mode ∧ align.isSome then .error .value
  else
    match size, scale with
    | .none, none => .error .value
    | .none, some r => .ok (.inr r)
    | .given s, none => .ok (.inl s)
    | .typing, none => .error .type
    | _, some _ => .error .value

/-- `InputResizer`, function.py lines 8-32. -/
structure Resizer where
  mode : String
  align : Option Bool
  scale : Option ℚ
  size : Size
deriving DecidableEq, Repr

/-- `valid_interpolation_type`, lines 9-12. -/
def modes : List String := ["nearest", "linear", "bilinear", "bicubic", "trilinear", "area", "nearest-exact"]

/-- `__init__`, lines 14-30. -/
def Resizer.new (mode : String) (align : Option Bool) (scale : Option ℚ) : Except Err Resizer :=
  if modes.contains mode then .ok ⟨mode, align, scale, .none⟩ else .error .value

/-- `forward`, lines 32-41. -/
def Resizer.forward (r : Resizer) (size : Size) : Except Err (List Nat ⊕ ℚ) :=
  interpolate r.mode r.align (if size = .none then r.size else size) r.scale

/-- `DynamicInputResizer`: the current choice of the registered mutable, and whether it is fixed. -/
structure DynResizer where
  base : Resizer
  shape : Option (List Nat)
  fixed : Bool
deriving DecidableEq, Repr

/-- `_register_mutable_shape`, dynamic_mixins.py lines 426-434. -/
def DynResizer.register (r : DynResizer) (s : List Nat) (fixed : Bool) : Except Err DynResizer :=
  if [1, 2, 3].contains s.length then .ok { r with shape := some s, fixed := fixed } else .error .value

/-- The size used by `forward`, dynamic_function.py lines 34-40: the choice, or the argument if there is none. -/
def DynResizer.size (r : DynResizer) (size : Size) : Size :=
  match r.shape with
  | some (a :: l) => .given (a :: l)
  | _ => size

/-- `forward`, lines 31-40: the result and the resizer afterwards. -/
def DynResizer.forward (r : DynResizer) (size : Size) : Except Err (List Nat ⊕ ℚ) × DynResizer :=
  let b : Resizer := { r.base with size := r.size size }
  (b.forward (r.size size), { r with base := b })

/-- `to_static_op`, dynamic_mixins.py lines 443-455. -/
def DynResizer.toStatic (r : DynResizer) : Except Err Resizer :=
  if r.shape.isSome ∧ r.fixed = false then .error .runtime
  else
    match Resizer.new r.base.mode r.base.align r.base.scale with
    | .error e => .error e
    | .ok s =>
      match r.shape with
      | none => .ok s
      | some z => .ok { s with size := .given z }

/-! ### Searchable classifier -/

/-- An entry of `input_sizes`: a list or a number. -/
inductive SizeEntry
  | list (l : List Nat)
  | num (n : Nat)
deriving DecidableEq, Repr

/-- `_build_input_resizer`, image.py lines 77-97: the candidates of the built mutable. -/
def buildSizes (sizes : Option (List SizeEntry)) : Except Err (List SizeEntry) :=
  match sizes with
  | none => .error .assertion
  | some [] => .error .index
  | some (.num _ :: _) => .error .assertion
  | some (.list a :: l) => .ok (.list a :: l)

/-- One entry of `connect_head`, lines 55-59: the parts of the value around dots; `attrs` are the attributes of the classifier and of
its parts. -/
def connectOne (attrs : String → Option (String → Option Nat)) (methods : List String) (key : String) (parts : List String) :
    Except Err (String × Nat) :=
  match parts with
  | [c, a] =>
    match attrs c with
    | none => .error .attribute
    | some f =>
      match f a with
      | none => .error .attribute
      | some v => if methods.contains key then .ok (key, v) else .error .attribute
  | _ => .error .value

/-- `connect_head`: the calls made on the head. -/
def connectHead (withHead : Bool) (attrs : String → Option (String → Option Nat)) (methods : List String) :
    List (String × List String) → Except Err (List (String × Nat))
  | [] => .ok []
  | (k, p) :: l =>
    if withHead then
      match connectOne attrs methods k p with
      | .error e => .error e
      | .ok c =>
        match connectHead withHead attrs methods l with
        | .error e => .error e
        | .ok r => .ok (c :: r)
    else .ok []

/-- `extract_feat`, lines 68-75: whether the inputs are resized first. -/
def extract {X Y : Type} (resizer : Option (X → X)) (feat : X → Y) (use : Bool) (x : X) : Y :=
  match resizer with
  | some r => if use then feat (r x) else feat x
  | none => feat x

/-- `simple_test`, lines 99-104. -/
def simpleTest {X Y Z : Type} (resizer : Option (X → X)) (feat : X → Y) (head : Y → Z) (x : X) : Z := head (extract resizer feat false x)

/-- `ImageClassifier.predict` (mmcls), which calls `extract_feat` with its defaults. -/
def predict {X Y Z : Type} (resizer : Option (X → X)) (feat : X → Y) (head : Y → Z) (x : X) : Z := head (extract resizer feat true x)

/-! ### Replacing layers by dynamic ones -/

/-- A layer: its class, its hyperparameters and its parameters. -/
structure Layer (H P : Type) where
  cls : String
  hyper : H
  params : P
deriving DecidableEq, Repr

/-- `_replace_with_dynamic_ops`, mutable_channel_unit.py lines 226-235, for one name: a layer whose class is in the map becomes a
new layer of the dynamic class, with the same hyperparameters; `fresh` is the initialisation of a new layer
(`convert_from` of dynamic_conv.py, dynamic_linear.py, dynamic_norm.py hands over no parameters). -/
def replaceOne {H P : Type} (map : List (String × String)) (fresh : String → H → P) (l : Layer H P) : Layer H P :=
  match map.lookup l.cls with
  | some c => ⟨c, l.hyper, fresh c l.hyper⟩
  | none => l

/-- The whole loop, for the layers named by the channels of a unit. -/
def replaceAll {H P : Type} (map : List (String × String)) (fresh : String → H → P) : List String → (String → Option (Layer H P)) →
    (String → Option (Layer H P))
  | [], m => m
  | n :: l, m => replaceAll map fresh l (fun k => if k = n then (m n).map (replaceOne map fresh) else m k)

end Verif.TransOps
