import Verif.Py
import Verif.Sort
import Mathlib.Algebra.Order.Field.Rat
import Mathlib.Data.Nat.Log

/-! Model of the kernels that multiply with packed weights and of their tuning:
`matmul_248_kernel`, `transpose_matmul_248_kernel`, `matmul248` and `transpose_matmul248` in
`mmrazor/implementations/quantization/gptq/ops.py`, and
`mmrazor/implementations/quantization/gptq/custom_autotune.py`. Memory is addressed as in the code;
what is stored behind the end of a tensor is some value too. Numbers are exact, words are without
sign. -/

namespace Verif.Triton
open Verif

/-- `triton.cdiv`. -/
def cdiv (a b : Nat) : Nat := (a + b - 1) / b

/-- `triton.Config`: the sizes of blocks and groups, stages and warps. -/
structure Config where
  bm : Nat
  bn : Nat
  bk : Nat
  gm : Nat
  stages : Nat
  warps : Nat
deriving DecidableEq, Repr

/-- The memory behind the pointers that are read: input, packed weights, scales, packed zero points,
groups. -/
structure Mem where
  a : Nat → ℚ
  b : Nat → Nat
  scales : Nat → ℚ
  zeros : Nat → Nat
  g : Nat → Nat

/-- The strides. -/
structure Strides where
  am : Nat
  ak : Nat
  bk : Nat
  bn : Nat
  cm : Nat
  cn : Nat
  scales : Nat
  zeros : Nat
deriving DecidableEq, Repr

/-- The block of rows and of columns of a program, ops.py lines 126-134 (and 289-297, with `K` for
`N`): `nm` and `nn` are the numbers of blocks. -/
def tileOf (nm nn gm pid : Nat) : Nat × Nat :=
  let inGroup := gm * nn
  let group := pid / inGroup
  let first := group * gm
  let size := min (nm - first) gm
  (first + pid % size, pid % inGroup / size)

/-- All programs of a launch, ops.py lines 361-367 and 383-387, and what they store, lines 136-137 with
187-190, and 299-300 with 346-349: one element for each row and column of the block, masked. `val` is
the accumulated element. -/
def launch (rows cols br bc gm cm cn : Nat) (val : Nat → Nat → ℚ) : List (Nat × ℚ) :=
  (List.range (cdiv rows br * cdiv cols bc)).flatMap fun pid =>
    let t := tileOf (cdiv rows br) (cdiv cols bc) gm pid
    (List.range br).flatMap fun i => (List.range bc).filterMap fun j =>
      let r := t.1 * br + i
      let c := t.2 * bc + j
      if r < rows ∧ c < cols then some (cm * r + cn * c, val r c) else none

/-- `(w >> shift) & maxq`. -/
def field (w shift maxq : Nat) : Nat := (w >>> shift) &&& maxq

/-- One term of the product in `matmul_248_kernel`, ops.py lines 139-185: element `kk` of iteration
`t`, for a row (inside the tensor; otherwise nothing is stored) and a column. -/
def fwdTerm (mem : Mem) (s : Strides) (bits maxq bk row col t kk : Nat) : ℚ :=
  let per := 32 / bits
  let gi := mem.g (kk + t * bk)
  let scale := mem.scales (col + gi * s.scales)
  let zero := field (mem.zeros (col / per + gi * s.zeros)) (col % per * bits) maxq + 1
  let a := mem.a (row * s.am + kk * s.ak + t * bk)
  let b := field (mem.b (kk / per * s.bk + col * s.bn + t * (bk / per * s.bk))) (kk % per * bits) maxq
  a * (((b : ℚ) - zero) * scale)

/-- The accumulator of `matmul_248_kernel`, lines 157-185. -/
def fwdAcc (mem : Mem) (s : Strides) (bits maxq K bk row col : Nat) : ℚ :=
  ((List.range (cdiv K bk)).map fun t => ((List.range bk).map fun kk => fwdTerm mem s bits maxq bk row col t kk).sum).sum

/-- `matmul248`, lines 356-374: what is stored in the output. -/
def matmul (mem : Mem) (s : Strides) (bits M N K : Nat) (c : Config) : List (Nat × ℚ) :=
  launch M N c.bm c.bn c.gm s.cm s.cn (fwdAcc mem s bits (2 ^ bits - 1) K c.bk)

/-- One term of the product in `transpose_matmul_248_kernel`, ops.py lines 301-344: element `nn` of
iteration `t`, for a row and a column of the output. -/
def bwdTerm (mem : Mem) (s : Strides) (bits maxq bn row col t nn : Nat) : ℚ :=
  let per := 32 / bits
  let gi := mem.g col
  let scale := mem.scales (nn + gi * s.scales + t * bn)
  let zero := field (mem.zeros (nn / per + gi * s.zeros + t * (bn / per))) (nn % per * bits) maxq + 1
  let a := mem.a (row * s.am + nn * s.ak + t * bn)
  let b := field (mem.b (col / per * s.bk + nn * s.bn + t * bn)) (col % per * bits) maxq
  a * (((b : ℚ) - zero) * scale)

/-- The accumulator of `transpose_matmul_248_kernel`, lines 322-344. -/
def bwdAcc (mem : Mem) (s : Strides) (bits maxq N bn row col : Nat) : ℚ :=
  ((List.range (cdiv N bn)).map fun t => ((List.range bn).map fun nn => bwdTerm mem s bits maxq bn row col t nn).sum).sum

/-- `transpose_matmul248`, lines 377-395; the packed weights have `words` rows. -/
def transposeMatmul (mem : Mem) (s : Strides) (bits M N words : Nat) (c : Config) : List (Nat × ℚ) :=
  launch M (words * 32 / bits) c.bm c.bk c.gm s.cm s.cn (bwdAcc mem s bits (2 ^ bits - 1) N c.bn)

/-! ### Tuning -/

/-- `2**int(math.log2(x) + 0.5)`, custom_autotune.py line 112, computed exactly: the exponent is
half of the logarithm of `2 * x * x`, rounded down. The logarithm of 0 is a `ValueError`. -/
def nearest (x : Nat) : Except Err Nat :=
  if x = 0 then .error .value else .ok (2 ^ (Nat.log 2 (2 * x * x) / 2))

/-- `max(2**int(math.ceil(math.log2(x))), 16)`, lines 229-231. -/
def ceilPow (x : Nat) : Except Err Nat :=
  if x = 0 then .error .value else .ok (max (2 ^ Nat.clog 2 x) 16)

/-- The loop of `matmul248_kernel_config_pruner`, lines 233-254: shrunk blocks, each combination
once. -/
def shrink (m n k : Nat) : List Config → List Config → List Config
  | [], _ => []
  | c :: cs, used =>
    let d : Config := { c with bm := min m c.bm, bn := min n c.bn, bk := min k c.bk }
    if d ∈ used then shrink m n k cs used else d :: shrink m n k cs (d :: used)

/-- `matmul248_kernel_config_pruner`, lines 226-254. -/
def pruner (configs : List Config) (M N K : Nat) : Except Err (List Config) := do
  let m ← ceilPow M
  let n ← ceilPow N
  let k ← ceilPow K
  .ok (shrink m n k configs [])

/-- `key`, lines 105-112. -/
def keyOf (shape : Nat × Nat × Nat) : Except Err (Nat × Nat × Nat) := do
  let m ← nearest shape.1
  let n ← nearest shape.2.1
  let k ← nearest shape.2.2
  .ok (m, n, k)

/-- `builtins.min(timings, key=timings.get)`, line 124: the first of the fastest. -/
def fastest (time : Config → ℚ) : List Config → Option Config
  | [] => none
  | c :: cs => match fastest time cs with
    | none => some c
    | some d => if time d < time c then some d else some c

/-- `prune_configs_by`: the pruner (`none`: no such key, `some false`: `None`), and the model of the
running time with the number of configurations kept. -/
structure PruneBy where
  early : Option Bool
  perf : Option ((Config → ℚ) × Nat)

/-- The part of `Autotuner.__init__` with the pruning, lines 60-70: without the key of the pruner its
local variable is not bound. -/
def initPrune : Option PruneBy → Except Err (Bool × Option ((Config → ℚ) × Nat))
  | none => .ok (false, none)
  | some p => match p.early with
    | none => .error .name
    | some e => .ok (e, p.perf)

/-- `Autotuner.prune_configs`, lines 140-162. The pruner is a generator: it has no length. -/
def candidates (configs : List Config) (early : Bool) (perf : Option ((Config → ℚ) × Nat)) (shape : Nat × Nat × Nat) :
    Except Err (List Config) :=
  match perf with
  | none => if early then pruner configs shape.1 shape.2.1 shape.2.2 else .ok configs
  | some (f, k) =>
    if early then .error .type
    else if configs.length > k then .ok ((sortBy (fun a b => decide (f a ≤ f b)) configs).take k) else .ok configs

/-- The cache: keys and configurations. -/
abbrev Cache := List ((Nat × Nat × Nat) × Config)

/-- `Autotuner.run` with several configurations, lines 101-138: the configuration that is used, and
the cache. `early` is whether there is a pruner (the kernels have no model of the running time),
`time` what is measured in this call. -/
def tune (configs : List Config) (early : Bool) (cache : Cache) (shape : Nat × Nat × Nat) (time : Config → ℚ) :
    Except Err (Config × Cache) := do
  let key ← keyOf shape
  match cache.lookup key with
  | some c => .ok (c, cache)
  | none =>
    let l ← candidates configs early none shape
    match fastest time l with
    | none => .error .value
    | some c => .ok (c, (key, c) :: cache)

/-- Calls one after the other: the cache after them. -/
def tuneAll (configs : List Config) (early : Bool) : List ((Nat × Nat × Nat) × (Config → ℚ)) → Cache → Except Err Cache
  | [], cache => .ok cache
  | (shape, time) :: rest, cache => match tune configs early cache shape time with
    | .error e => .error e
    | .ok (_, cache) => tuneAll configs early rest cache

/-- The configurations of `matmul_248_kernel`, ops.py lines 23-95. -/
def fwdConfigs : List Config :=
  [⟨64, 256, 32, 8, 4, 4⟩, ⟨128, 128, 32, 8, 4, 4⟩, ⟨64, 128, 32, 8, 4, 4⟩, ⟨128, 32, 32, 8, 4, 4⟩, ⟨64, 64, 32, 8, 4, 4⟩,
   ⟨64, 128, 32, 8, 2, 8⟩, ⟨64, 64, 64, 8, 3, 8⟩, ⟨32, 32, 128, 8, 2, 4⟩]

/-- The configurations of `transpose_matmul_248_kernel`, ops.py lines 193-265. -/
def bwdConfigs : List Config :=
  [⟨64, 32, 256, 8, 4, 4⟩, ⟨128, 32, 128, 8, 4, 4⟩, ⟨64, 32, 128, 8, 4, 4⟩, ⟨128, 32, 32, 8, 4, 4⟩, ⟨64, 32, 64, 8, 4, 4⟩,
   ⟨64, 32, 128, 8, 2, 8⟩, ⟨64, 64, 64, 8, 3, 8⟩, ⟨32, 128, 32, 8, 2, 4⟩]

end Verif.Triton
