import Verif.Model.Container
import Verif.Model.Derived
import Verif.Sort
import Mathlib.Logic.Function.Basic

/-! Model of the searchable vision transformer of
`mmrazor/models/architectures/backbones/searchable_autoformer.py` at the level of the widths of its layers: which mutables its
construction makes from `arch_setting`, how they are registered in the containers of the layers, and which widths meet in the
forward pass. The mutables are those of `Verif/Model/SeqChannel.lean` and `Verif/Model/Derived.lean`, the containers those of
`Verif/Model/Container.lean`. Products of floats are exact; the values of the features are not part of this model (attention is in
`Verif/Model/Autoformer.lean`). Reading a container may store fillers in it, which do not change later masks (C03); here reading
leaves the container as it is. -/

namespace Verif.AutoNet
open Verif SeqChannel Derived

/-- `arch_setting`, with its lists as given. -/
structure Setting where
  embeds : List ℕ
  heads : List ℕ
  ratios : List ℚ
  depths : List ℕ
deriving DecidableEq, Repr

/-- A container of a layer: the number of channels of the layer and the stored mutables. -/
structure Port where
  n : ℕ
  items : Container.Dict Expr
deriving DecidableEq, Repr

/-- The containers of a `TransformerEncoderLayer` and its number of heads. -/
structure Layer where
  heads : ℕ
  norm1 : Port
  attnIn : Port
  attnOut : Port
  relK : Port
  relV : Port
  norm2 : Port
  fc1In : Port
  fc1Out : Port
  fc2In : Port
  fc2Out : Port
deriving DecidableEq, Repr

/-- The backbone: its lists of candidates, the current state of all mutables, the containers. -/
structure Net where
  embedN : ℕ
  setting : Setting
  count : ℕ
  store : Store
  depth : ℕ
  patch : Port
  layers : List Layer
  norm : Option Port

/-- `mutable_embed_dims`, lines 238-240. -/
def embedE : Expr := .chan 0

/-- `base_embed_dims`, lines 243-244. -/
def baseE : Expr := .chan 1

/-- `mutable_q_embed_dims[i]`, lines 258-260. -/
def qE (i : ℕ) : Expr := .mulValue 1 (2 * i)

/-- `middle_channels` of layer `i`, line 106. -/
def midE (i : ℕ) : Expr := .mulValue 0 (2 * i + 1)

/-- `max_choice` of a `OneShotMutableValue`: the last of the sorted values. -/
def maxOf {α : Type} [LE α] [DecidableLE α] (l : List α) : Option α := (sortBy (fun a b => decide (a ≤ b)) l).getLast?

/-- `register_mutable_channel_to_module`, mutable_channel_container.py lines 74-91, of a mutable that starts at 0: it ends at
its current choice (`end` is this value as well where it is given, lines 123, 136 and 142). -/
def port (σ : Store) (n : ℕ) (e : Expr) : Except Err Port :=
  match evalChoice σ e with
  | .error x => .error x
  | .ok c =>
    match Container.setItem [] (0, c) (.reg e) with
    | .error x => .error x
    | .ok d => .ok ⟨n, d⟩

/-- One `TransformerEncoderLayer`, lines 49-81, with its registered mutables, lines 93-146. `nn.Linear` refuses a negative
width. -/
def mkLayer (σ : Store) (embedN heads : ℕ) (ratio : ℚ) (i : ℕ) : Except Err Layer := do
  let mid := pyInt (embedN * ratio)
  if mid < 0 then .error .runtime
  else
    let norm1 ← port σ embedN embedE
    let norm2 ← port σ embedN embedE
    let attnIn ← port σ embedN embedE
    let attnOut ← port σ (heads * 64) (qE i)
    let relK ← port σ 64 baseE
    let relV ← port σ 64 baseE
    let fc1In ← port σ embedN embedE
    let fc1Out ← port σ mid.toNat (midE i)
    let fc2In ← port σ mid.toNat (midE i)
    let fc2Out ← port σ embedN embedE
    .ok ⟨heads, norm1, attnIn, attnOut, relK, relV, norm2, fc1In, fc1Out, fc2In, fc2Out⟩

/-- The mutables after construction, lines 233-260: the values are the last of the lists as given, all channels are active. -/
def store (embedN head headMax : ℕ) (ratio ratioMax : ℚ) : Store where
  chan i := if i = 0 then SeqChannel.init embedN false else SeqChannel.init 64 false
  val i := if i % 2 = 0 then ⟨head, headMax, false⟩ else ⟨ratio, ratioMax, false⟩

/-- The layers of the backbone, lines 310-323 and 337-346: there is a mutable for each of the first `count`. -/
def mkLayers (σ : Store) (embedN heads : ℕ) (ratio : ℚ) (count depth : ℕ) : Except Err (List Layer) :=
  (List.range depth).mapM fun i => if i < count then mkLayer σ embedN heads ratio i else .error .index

/-- `AutoformerBackbone.__init__`, lines 200-302: `num_channels` of the embedding is the last listed width, the number of
mutables the last listed depth, the number of layers the largest depth. An empty list has no last entry. -/
def build (s : Setting) (finalNorm : Bool) : Except Err Net :=
  match s.depths.getLast?, maxOf s.depths, s.embeds.getLast?, s.heads.getLast?, maxOf s.heads, s.ratios.getLast?, maxOf s.ratios with
  | some d, some dm, some e, some h, some hm, some r, some rm => do
    let σ := store e h hm r rm
    let layers ← mkLayers σ e hm rm d dm
    let patch ← port σ e embedE
    let norm ← if finalNorm then (port σ e embedE).map some else .ok none
    .ok ⟨e, s, d, σ, d, patch, layers, norm⟩
  | _, _, _, _, _, _, _ => .error .index

/-- Setting the choice of one mutable. -/
inductive Pick where
  | embed (e : ℕ)
  | head (i h : ℕ)
  | ratio (i : ℕ) (r : ℚ)
  | depth (d : ℕ)
deriving DecidableEq, Repr

/-- A store with another channel mutable. -/
def setChan (σ : Store) (i : ℕ) (s : Seq) : Store := { σ with chan := Function.update σ.chan i s }

/-- A store with another current value. -/
def setVal (σ : Store) (i : ℕ) (c : ℚ) : Store := { σ with val := Function.update σ.val i { σ.val i with cur := c } }

/-- The setters of `current_choice`: oneshot_mutable_channel.py lines 36-42 and mutable_value.py lines 110-117. -/
def Net.pick (n : Net) : Pick → Except Err Net
  | .embed e =>
    if e ∈ n.setting.embeds then .ok { n with store := setChan n.store 0 (setChoice (n.store.chan 0) (.num e)) }
    else .error .assertion
  | .head i h =>
    if n.count ≤ i then .error .index
    else if h ∈ n.setting.heads then .ok { n with store := setVal n.store (2 * i) h }
    else .error .value
  | .ratio i r =>
    if n.count ≤ i then .error .index
    else if r ∈ n.setting.ratios then .ok { n with store := setVal n.store (2 * i + 1) r }
    else .error .value
  | .depth d => if d ∈ n.setting.depths then .ok { n with depth := d } else .error .value

/-- The mask of a container, mutable_channel_container.py lines 37-48. A mask that cannot be made (of negative size) is empty
here; the construction refuses such sizes. -/
def Port.mask (σ : Store) (p : Port) : Except Err (List Bool) :=
  (Container.currentMask (fun e => match evalMask σ e with
    | .ok m => m
    | .error _ => []) p.n p.items).2

/-- Selecting the active channels of a parameter: the mask must have its size. -/
def Port.select (σ : Store) (p : Port) : Except Err (List Bool) :=
  match p.mask σ with
  | .error e => .error e
  | .ok m => if m.length = p.n then .ok m else .error .index

/-- `activated_channels` of a container. -/
def Port.active (σ : Store) (p : Port) : Except Err ℕ := (p.mask σ).map popcount

/-- The width of the sum of features of two widths (sizes of 1 are repeated). -/
def addW (a b : ℕ) : Except Err ℕ :=
  if a = b then .ok a else if a = 1 then .ok b else if b = 1 then .ok a else .error .runtime

/-- A layer norm on features of width `w`. -/
def normW (σ : Store) (p : Port) (w : ℕ) : Except Err (List Bool) := do
  let m ← p.select σ
  if popcount m = w then .ok m else .error .runtime

/-- `F.linear` with the parameters cut by two masks on features of width `w`. -/
def linearW (σ : Store) (i o : Port) (w : ℕ) : Except Err (List Bool × List Bool) := do
  let mo ← o.select σ
  let mi ← i.select σ
  if popcount mi = w then .ok (mi, mo) else .error .runtime

/-- The active parameters of an attention layer: the number of heads, the features of each of them, the sizes of the four
projections. -/
structure AttnShape where
  heads : ℕ
  dim : ℕ
  input : ℕ
  query : ℕ
  output : ℕ
deriving DecidableEq, Repr

/-- `DynamicMultiheadAttention.forward`, dynamic_multi_head_attention.py lines 133-185 and 238-279: slices `[:q, :e]` of the
projections, the view with `h` heads, the sum with the relative positions. -/
def attnW (σ : Store) (l : Layer) (h : ℕ) (w : ℕ) : Except Err AttnShape := do
  let q ← l.attnOut.active σ
  let e ← l.attnIn.active σ
  if w ≠ min e l.attnIn.n then .error .runtime
  else if h = 0 then .error .zeroDivision
  else if min q (l.heads * 64) ≠ h * (q / h) then .error .runtime
  else
    let rk ← l.relK.active σ
    let rv ← l.relV.active σ
    if min rk 64 ≠ q / h ∨ min rv 64 ≠ q / h then .error .runtime
    else .ok ⟨h, q / h, min e l.attnIn.n, min q (l.heads * 64), min e l.attnIn.n⟩

/-- The active parameters of a layer: the features of the norms and of both ends of the linear layers, and the attention. -/
structure LayerShape where
  norm1 : List Bool
  attn : AttnShape
  norm2 : List Bool
  fc1 : List Bool × List Bool
  fc2 : List Bool × List Bool
deriving DecidableEq, Repr

/-- `TransformerEncoderLayer.forward`, lines 148-159, on features of width `w`: the active parameters and the width of the
result. `h` is the current number of heads. -/
def layerW (σ : Store) (l : Layer) (h w : ℕ) : Except Err (LayerShape × ℕ) := do
  let n1 ← normW σ l.norm1 w
  let a ← attnW σ l h w
  let x ← addW w a.output
  let n2 ← normW σ l.norm2 x
  let f1 ← linearW σ l.fc1In l.fc1Out x
  let f2 ← linearW σ l.fc2In l.fc2Out (popcount f1.2)
  let y ← addW x (popcount f2.2)
  .ok (⟨n1, a, n2, f1, f2⟩, y)

/-- The current number of heads of layer `i`. -/
def headOf (σ : Store) (i : ℕ) : ℕ := (σ.val (2 * i)).cur.num.toNat

/-- The layers one after the other, from the `i`th on. -/
def layersW (σ : Store) : ℕ → List Layer → ℕ → Except Err (List LayerShape × ℕ)
  | _, [], w => .ok ([], w)
  | i, l :: ls, w => do
    let r ← layerW σ l (headOf σ i) w
    let s ← layersW σ (i + 1) ls r.2
    .ok (r.1 :: s.1, s.2)

/-- The active parameters of the backbone: the patch embedding, the width of the class token and the positions, the layers,
the final norm, and the width of the output. -/
structure NetShape where
  patch : List Bool
  token : ℕ
  layers : List LayerShape
  norm : Option (List Bool)
  output : ℕ
deriving DecidableEq, Repr

/-- `AutoformerBackbone.forward`, lines 352-375. -/
def Net.forward (n : Net) : Except Err NetShape := do
  let p ← n.patch.select n.store
  let e := min (popcount (n.store.chan 0).mask) n.embedN
  if e ≠ popcount p then .error .runtime
  else
    let x ← addW (popcount p) e
    let r ← layersW n.store 0 (n.layers.take n.depth) x
    let norm ← match n.norm with
      | none => .ok none
      | some q => (normW n.store q r.2).map some
    .ok ⟨p, e, r.1, norm, r.2⟩

/-- The choices of several mutables, one after the other. -/
def Net.picks (n : Net) (l : List Pick) : Except Err Net := l.foldlM Net.pick n

end Verif.AutoNet
