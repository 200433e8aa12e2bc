import Verif.Model.GptqQuantizer
import Verif.Sort

/-! Model of `GPTQMixIn.quant` of `mmrazor/implementations/quantization/gptq/gptq.py` (lines 212-313)
for a layer with single precision weights, so that the working matrix is the layer's own weight as
long as the columns are not reordered. Exact rationals. The matrix `hinv` stands for the upper
triangular factor that lines 244-248 compute of the (reordered and damped) matrix. At least one
row and one column. -/

namespace Verif.GptqLayer
open Verif Verif.GptqQuantizer

abbrev Mat := Nat → Nat → ℚ

/-- A set of parameters for every row. -/
abbrev Params := Nat → P

/-- The arguments of `quant`, the quantiser and the layer. `groupsize = none` is -1; `perm` is the
order in which the columns are treated; `init` are the parameters the quantiser has already, if it
is ready; `actorder`: the columns are reordered (the working matrix is then a copy); `cuda`: whether
`torch.cuda.synchronize()` of line 289 can be executed. -/
structure Cfg where
  rows : Nat
  cols : Nat
  blocksize : Nat
  groupsize : Option Nat
  maxq : Int
  sym : Bool
  mse : Option Mse
  perchannel : Bool
  init : Option Params
  hinv : Mat
  dead : Nat → Bool
  actorder : Bool
  perm : List Nat
  cuda : Bool

/-- The order of the columns, lines 234-235: `torch.argsort` of the diagonal after line 231,
descending (the order of equal entries is not specified by the library), or no reordering. -/
def order (cols : Nat) (actorder : Bool) (diag : Nat → ℚ) (dead : Nat → Bool) : List Nat :=
  if actorder then
    sortBy (fun a b => decide ((if dead b then 1 else diag b) ≤ (if dead a then 1 else diag a))) (List.range cols)
  else List.range cols

/-- `quantizer.find_params(W[:, start:start + width], weight=True)`, quantizer.py lines 45-118. -/
def find (c : Cfg) (w : Mat) (start width : Nat) : Params :=
  let part := fun r => ((List.range c.cols).drop start |>.take width).map (w r)
  if c.perchannel then fun r => findParams c.maxq c.sym c.mse (part r)
  else fun _ => findParams c.maxq c.sym c.mse ((List.range c.rows).flatMap part)

/-- The quantiser's parameters, the recorded parameters and `now_idx`. -/
structure Quant where
  cur : Params
  groups : List Params
  now : Nat

/-- Lines 269-279, before the column `col` is treated. -/
def Quant.group (c : Cfg) (w : Mat) (col : Nat) (q : Quant) : Except Err Quant :=
  match c.groupsize with
  | none => .ok q
  | some 0 => .error .zeroDivision
  | some gs =>
    let q := if col % gs = 0 then { q with cur := find c w col gs } else q
    .ok (if (col / gs : Int) - q.now = -1 then ⟨q.cur, q.groups ++ [q.cur], q.now + 1⟩ else q)

/-- `quantizer.quantize` on a column, quantizer.py lines 128-138: nothing happens unless all rows
have a scale. -/
def quantizeCol (c : Cfg) (p : Params) (x : Nat → ℚ) (r : Nat) : ℚ :=
  if (List.range c.rows).all fun r => decide ((p r).scale ≠ 0) then quantize c.maxq (p r) (x r) else x r

/-- The tensors of a block, the quantiser, and the losses. -/
structure Blk where
  w1 : Mat
  q1 : Mat
  err1 : Mat
  qz : Quant
  loss : ℚ

/-- One column, lines 265-287; `w` is the working matrix. -/
def colStep (c : Cfg) (w : Mat) (i1 i : Nat) (b : Blk) : Except Err Blk := do
  let qz ← b.qz.group c w (i1 + i)
  let d := c.hinv (i1 + i) (i1 + i)
  let q := quantizeCol c qz.cur fun r => b.w1 r i
  let e := fun r => (b.w1 r i - q r) / d
  return ⟨fun r j => if i ≤ j then b.w1 r j - e r * c.hinv (i1 + i) (i1 + j) else b.w1 r j,
    fun r j => if j = i then q r else b.q1 r j, fun r j => if j = i then e r else b.err1 r j, qz,
    b.loss + ((List.range c.rows).map fun r => (b.w1 r i - q r) ^ 2 / d ^ 2 / 2).sum⟩

/-- The block after its first `k` columns, lines 259-287. -/
def cols (c : Cfg) (w : Mat) (i1 : Nat) (qz : Quant) (loss : ℚ) : Nat → Except Err Blk
  | 0 => .ok ⟨fun r j => w r (i1 + j), fun _ _ => 0, fun _ _ => 0, qz, loss⟩
  | k + 1 => do colStep c w i1 k (← cols c w i1 qz loss k)

/-- The working matrix, the quantised matrix, the quantiser and the losses. -/
structure St where
  w : Mat
  q : Mat
  qz : Quant
  loss : ℚ

/-- One block, lines 255-292. -/
def blockStep (c : Cfg) (b : Nat) (s : St) : Except Err St := do
  let i1 := b * c.blocksize
  let i2 := min (i1 + c.blocksize) c.cols
  let k ← cols c s.w i1 s.qz s.loss (i2 - i1)
  return ⟨fun r j => if j < i2 then s.w r j
      else s.w r j - ((List.range (i2 - i1)).map fun t => k.err1 r t * c.hinv (i1 + t) j).sum,
    fun r j => if i1 ≤ j ∧ j < i2 then k.q1 r (j - i1) else s.q r j, k.qz, k.loss⟩

/-- The state before the first block, lines 225-253: the quantiser sees the weights before the dead
columns are zeroed and before the columns are reordered. -/
def start (c : Cfg) (w : Mat) : St :=
  ⟨fun r j => if c.dead (c.perm.getD j 0) then 0 else w r (c.perm.getD j 0), fun _ _ => 0,
    ⟨c.init.getD (find c w 0 c.cols), [], 1⟩, 0⟩

/-- The first `k` blocks. -/
def blocks (c : Cfg) (w : Mat) : Nat → Except Err St
  | 0 => .ok (start c w)
  | k + 1 => do blockStep c k (← blocks c w k)

/-- What `quant` leaves: the weights, the recorded parameters, the group of every column, the
returned error. -/
structure Result where
  w : Mat
  params : List Params
  gidx : Nat → Nat
  loss : ℚ

/-- `torch.argsort(perm)`. -/
def invperm (c : Cfg) (j : Nat) : Nat := c.perm.idxOf j

/-- `quant`: the weights that the layer has in the end, and the result or the exception. -/
def quant (c : Cfg) (w : Mat) : Mat × Except Err Result :=
  let zeroed : Mat := fun r j => if c.dead j then 0 else w r j
  if c.blocksize = 0 then (zeroed, .error .value)
  else match blocks c w ((c.cols + c.blocksize - 1) / c.blocksize) with
    | .error e => (zeroed, .error e)
    | .ok s =>
      if c.cuda = false then (if c.actorder then zeroed else s.w, .error .assertion)
      else
        let q : Mat := fun r j => s.q r (invperm c j)
        (q, .ok ⟨q, if s.qz.groups = [] then [s.qz.cur] else s.qz.groups,
          fun j => invperm c j / c.groupsize.getD c.cols, s.loss⟩)

end Verif.GptqLayer
