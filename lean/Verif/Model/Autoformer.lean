import Verif.Py
import Mathlib.Analysis.SpecialFunctions.Exp
import Mathlib.Algebra.BigOperators.Group.Finset.Basic
import Mathlib.Data.Nat.Sqrt

/-! Model of the searchable vision transformer: `mmrazor/models/architectures/ops/transformer_series.py`
(relative positions, attention), `dynamic_ops/bricks/dynamic_relative_position.py`,
`dynamic_multi_head_attention.py`, `dynamic_container.py` and `backbones/searchable_autoformer.py`. Tensors
are functions of indices together with their sizes; numbers are exact; dropout is off. -/

namespace Verif.Autoformer
open Verif

/-- `torch.clamp(x, lo, hi)`. -/
def clampTo (lo hi x : ℤ) : ℤ := min (max x lo) hi

/-- An entry of `final_mat_v`, transformer_series.py lines 38-66: row 0 and column 0 are the padding for
the class token. `side` is `int(length_q ** 0.5)`. -/
def finalV (maxRel side i j : ℕ) : ℤ :=
  if i = 0 ∨ j = 0 then 0
  else clampTo (-maxRel) maxRel (((j - 1) / side : ℕ) - ((i - 1) / side : ℕ)) + maxRel + 1

/-- An entry of `final_mat_h`, transformer_series.py lines 38-67. -/
def finalH (maxRel side i j : ℕ) : ℤ :=
  if i = 0 ∨ j = 0 then 0
  else clampTo (-maxRel) maxRel (((j - 1) % side : ℕ) - ((i - 1) % side : ℕ)) + maxRel + 1

/-- `RelativePosition2D`, with the number of rows of its tables. -/
structure RelPos where
  headDims : ℕ
  maxRel : ℕ
  rows : ℕ
  tableV : ℕ → ℕ → ℝ
  tableH : ℕ → ℕ → ℝ

/-- `RelativePosition2D.__init__`, transformer_series.py lines 21-35, with given initial tables. -/
def RelPos.init (headDims maxRel : ℕ) (tv th : ℕ → ℕ → ℝ) : RelPos := ⟨headDims, maxRel, maxRel * 2 + 2, tv, th⟩

/-- `RelativePosition2D.forward(n, n)`, transformer_series.py lines 36-74: the number of features and the
embeddings of all pairs of tokens. Every index is looked up, one past the table fails. -/
noncomputable def RelPos.forward (r : RelPos) (n : ℕ) : Except Err (ℕ × (ℕ → ℕ → ℕ → ℝ)) :=
  let side := Nat.sqrt (n - 1)
  if ∀ i < n, ∀ j < n, finalV r.maxRel side i j < r.rows ∧ finalH r.maxRel side i j < r.rows then
    .ok (r.headDims, fun i j d =>
      r.tableV (finalV r.maxRel side i j).toNat d + r.tableH (finalH r.maxRel side i j).toNat d)
  else .error .index

/-- `DynamicRelativePosition2D`: `head` is the number of active channels of the registered mutable. -/
structure DynRelPos where
  base : RelPos
  head : Option ℕ

/-- `DynamicRelativePosition2D.forward`, dynamic_relative_position.py lines 108-154: the lookup of the
mutable fails when none is registered; the tables are cut to the first features. -/
noncomputable def DynRelPos.forward (r : DynRelPos) (n : ℕ) : Except Err (ℕ × (ℕ → ℕ → ℕ → ℝ)) :=
  match r.head with
  | none => .error .key
  | some c => RelPos.forward { r.base with headDims := min c r.base.headDims } n

/-- `to_static_op`, dynamic_relative_position.py lines 78-94: the static module is built from the number of
features alone, then its tables are replaced. -/
def DynRelPos.toStatic (r : DynRelPos) : Except Err RelPos :=
  match r.head with
  | none => .error .key
  | some c => .ok { RelPos.init c 14 r.base.tableV r.base.tableH with
      headDims := min c r.base.headDims, rows := r.base.rows }

/-- A linear layer. -/
structure Linear where
  outF : ℕ
  inF : ℕ
  weight : ℕ → ℕ → ℝ
  bias : Option (ℕ → ℝ)

/-- The slices of the weight and of the bias, dynamic_multi_head_attention.py lines 133-185. -/
def Linear.cut (w : Linear) (out inp : ℕ) : Linear := { w with outF := min out w.outF, inF := min inp w.inF }

/-- `F.linear` on tokens with `features` features. -/
noncomputable def Linear.apply (w : Linear) (features : ℕ) (x : ℕ → ℕ → ℕ → ℝ) : Except Err (ℕ → ℕ → ℕ → ℝ) :=
  if features = w.inF then
    .ok fun b n o => (∑ i ∈ Finset.range w.inF, w.weight o i * x b n i) + (match w.bias with
      | none => 0
      | some c => c o)
  else .error .runtime

/-- `.view(B, N, heads, dim).transpose(1, 2)` of a tensor with `size` features. -/
def split (size heads dim : ℕ) (x : ℕ → ℕ → ℕ → ℝ) : Except Err (ℕ → ℕ → ℕ → ℕ → ℝ) :=
  if size = heads * dim then .ok fun b h n d => x b n (h * dim + d) else .error .runtime

/-- Softmax over the last dimension of size `n`. -/
noncomputable def softmax (n : ℕ) (a : ℕ → ℝ) (j : ℕ) : ℝ := Real.exp (a j) / ∑ l ∈ Finset.range n, Real.exp (a l)

/-- The attention weights, transformer_series.py lines 169-178: `permute(2, 0, 1, 3).reshape(N, heads * B,
-1)`, the product with the relative positions, `transpose(1, 0).reshape(B, heads, N, N)`. -/
noncomputable def attnWeights (heads n dim : ℕ) (scale : ℝ) (rel : Option (ℕ → ℕ → ℕ → ℝ))
    (q k : ℕ → ℕ → ℕ → ℕ → ℝ) (b h i j : ℕ) : ℝ :=
  let base := fun b h i j => (∑ d ∈ Finset.range dim, q b h i d * k b h j d) * scale
  match rel with
  | none => softmax n (base b h i) j
  | some r =>
    let flat := fun t bh d => q (bh / heads) (bh % heads) t d
    let prod := fun t bh l => ∑ d ∈ Finset.range dim, flat t bh d * r t l d
    softmax n (fun j => base b h i j + prod i (b * heads + h) j * scale) j

/-- The attended values before the projection, transformer_series.py lines 179-186. -/
noncomputable def attended (heads n dim : ℕ) (rel : Option (ℕ → ℕ → ℕ → ℝ)) (a : ℕ → ℕ → ℕ → ℕ → ℝ)
    (v : ℕ → ℕ → ℕ → ℕ → ℝ) (b i e : ℕ) : ℝ :=
  let x := fun b i e => ∑ j ∈ Finset.range n, a b (e / dim) i j * v b (e / dim) j (e % dim)
  match rel with
  | none => x b i e
  | some r =>
    let t := fun m bh j => a (bh / heads) (bh % heads) m j
    let prod := fun m bh d => ∑ j ∈ Finset.range n, t m bh j * r m j d
    x b i e + prod i (b * heads + e / dim) (e % dim)

/-- The relative positions as they enter the attention: their number of features must be that of a head. -/
noncomputable def relFor (dim : ℕ) (r : Except Err (ℕ × (ℕ → ℕ → ℕ → ℝ))) : Except Err (ℕ → ℕ → ℕ → ℝ) := do
  let p ← r
  if p.1 = dim then .ok p.2 else .error .runtime

/-- Everything from the three projections to the output, transformer_series.py lines 163-189 and
dynamic_multi_head_attention.py lines 238-279. `relK` and `relV` are `none` without relative positions. -/
noncomputable def attention (heads n dim features : ℕ) (scale : ℝ) (wq wk wv proj : Linear)
    (relK relV : Option (Except Err (ℕ × (ℕ → ℕ → ℕ → ℝ)))) (x : ℕ → ℕ → ℕ → ℝ) : Except Err (ℕ → ℕ → ℕ → ℝ) := do
  let q ← split wq.outF heads dim (← wq.apply features x)
  let k ← split wk.outF heads dim (← wk.apply features x)
  let v ← split wv.outF heads dim (← wv.apply features x)
  let rk ← relK.mapM (relFor dim)
  let rv ← relV.mapM (relFor dim)
  let a := attnWeights heads n dim scale rk q k
  proj.apply (heads * dim) (attended heads n dim rv a v)

/-- `MultiheadAttention`, transformer_series.py lines 111-158. -/
structure Mha where
  embedDims : ℕ
  numHeads : ℕ
  wq : Linear
  wk : Linear
  wv : Linear
  proj : Linear
  scale : ℝ
  rel : Option (RelPos × RelPos)

/-- `MultiheadAttention.forward` without the shortcut, transformer_series.py lines 160-193; a head has 64
features. -/
noncomputable def Mha.forward (m : Mha) (n features : ℕ) (x : ℕ → ℕ → ℕ → ℝ) : Except Err (ℕ → ℕ → ℕ → ℝ) :=
  attention m.numHeads n 64 features m.scale m.wq m.wk m.wv m.proj
    (m.rel.map fun r => r.1.forward n) (m.rel.map fun r => r.2.forward n) x

/-- `DynamicMultiheadAttention`: the layer and the current choices of its registered mutables. -/
structure DynMha where
  embedDims : ℕ
  numHeads : ℕ
  wq : Linear
  wk : Linear
  wv : Linear
  proj : Linear
  scale : ℝ
  rel : Option (DynRelPos × DynRelPos)
  heads : Option ℕ
  embed : Option ℕ
  qEmbed : Option ℕ

/-- `mutable_attrs[...]`: a missing entry raises. -/
def registered (a : Option ℕ) : Except Err ℕ :=
  match a with
  | none => .error .key
  | some c => .ok c

/-- `DynamicMultiheadAttention.forward`, dynamic_multi_head_attention.py lines 238-279. -/
noncomputable def DynMha.forward (m : DynMha) (n features : ℕ) (x : ℕ → ℕ → ℕ → ℝ) : Except Err (ℕ → ℕ → ℕ → ℝ) := do
  let q ← registered m.qEmbed
  let e ← registered m.embed
  let h ← registered m.heads
  if h = 0 then .error .zeroDivision
  else
    attention h n (q / h) features m.scale (m.wq.cut q e) (m.wk.cut q e) (m.wv.cut q e) (m.proj.cut e q)
      (m.rel.map fun r => r.1.forward n) (m.rel.map fun r => r.2.forward n) x

/-- `nn.Parameter(bias.clone())`: without a bias there is nothing to clone. -/
def cloneBias (w : Linear) : Except Err Linear :=
  match w.bias with
  | none => .error .attribute
  | some _ => .ok w

/-- Both tables of relative positions made static. -/
def staticRel (r : Option (DynRelPos × DynRelPos)) : Except Err (Option (RelPos × RelPos)) :=
  match r with
  | none => .ok none
  | some (k, v) => do .ok (some (← k.toStatic, ← v.toStatic))

/-- `to_static_op`, dynamic_multi_head_attention.py lines 187-223: the scale is that of a fresh layer,
`64 ** -0.5`. -/
noncomputable def DynMha.toStatic (m : DynMha) : Except Err Mha := do
  let e ← registered m.embed
  let h ← registered m.heads
  let q ← registered m.qEmbed
  let wq ← cloneBias (m.wq.cut q e)
  let wk ← cloneBias (m.wk.cut q e)
  let wv ← cloneBias (m.wv.cut q e)
  let proj ← cloneBias (m.proj.cut e q)
  let rel ← staticRel m.rel
  .ok ⟨e, h, wq, wk, wv, proj, 1 / 8, rel⟩

/-- An entry of the modules of a `DynamicSequential`: a layer, or something the forward pass ignores. -/
inductive Entry (α : Type) where
  | layer (f : α → α)
  | ignored

/-- `DynamicSequential`; `_modules` ends with the `ModuleDict` of the mutables, which is ignored. -/
structure DynSeq (α : Type) where
  modules : List (Entry α)
  depth : Option ℕ

/-- `DynamicSequential.__init__`, dynamic_container.py lines 21-24. -/
def DynSeq.init {α : Type} (layers : List (α → α)) : DynSeq α := ⟨layers.map .layer ++ [.ignored], none⟩

/-- `_register_mutable_depth`, dynamic_container.py lines 40-50. -/
def DynSeq.register {α : Type} (s : DynSeq α) (depth : ℕ) : Except Err (DynSeq α) :=
  if s.modules.length < depth then .error .value else .ok { s with depth := some depth }

/-- The loop over the modules, dynamic_container.py lines 79-92, after `passed` layers. -/
def runLayers {α : Type} (depth : ℕ) : ℕ → List (Entry α) → α → α
  | _, [], x => x
  | passed, .ignored :: r, x => runLayers depth passed r x
  | passed, .layer f :: r, x => if depth < passed + 1 then x else runLayers depth (passed + 1) r (f x)

/-- `DynamicSequential.forward`, dynamic_container.py lines 79-92. -/
def DynSeq.forward {α : Type} (s : DynSeq α) (x : α) : Except Err α :=
  match s.depth with
  | none => .error .key
  | some d => .ok (runLayers d 0 s.modules x)

/-- The loop of `to_static_op`, dynamic_container.py lines 66-76. -/
def pickLayers {α : Type} (depth : ℕ) : ℕ → List (Entry α) → List (α → α)
  | _, [] => []
  | passed, .ignored :: r => pickLayers depth passed r
  | passed, .layer f :: r => if depth < passed + 1 then [] else f :: pickLayers depth (passed + 1) r

/-- `to_static_op`, dynamic_container.py lines 56-77. -/
def DynSeq.toStatic {α : Type} (s : DynSeq α) : Except Err (List (α → α)) :=
  match s.depth with
  | none => .error .key
  | some d => .ok (pickLayers d 0 s.modules)

/-- The largest of a nonempty list, as `max_choice` gives it. -/
def maxOf (l : List ℕ) : ℕ := l.foldl max 0

/-- The numbers that build the backbone, searchable_autoformer.py lines 229-323: one mutable for each layer
up to the last entry of `depth`, layers up to the largest. -/
def buildLayers (depthRange headRange : List ℕ) : Except Err (List ℕ) := do
  match depthRange.getLast?, headRange with
  | none, _ => .error .index
  | some _, [] => .error .index
  | some last, _ :: _ =>
    let perLayer := List.replicate last (maxOf headRange)
    (List.range (maxOf depthRange)).mapM fun i => match perLayer[i]? with
      | some h => .ok h
      | none => .error .index

/-- The number of tokens that enter the blocks, searchable_autoformer.py lines 262-280 and 352-369: the
patches are cut with the fixed size and stride 16, the positions are counted with `patch_size`. Tensors of
`a` and `b` tokens can be added when the sizes agree or one of them is 1. -/
def tokens (img patch : ℕ) : Except Err ℕ :=
  if patch = 0 then .error .zeroDivision
  else if img < 16 then .error .runtime
  else
    let a := (img / 16) * (img / 16) + 1
    let b := (img / patch) * (img / patch) + 1
    if a = b then .ok a else if a = 1 then .ok b else if b = 1 then .ok a else .error .runtime

end Verif.Autoformer
