import Verif.Model.Triton
import Verif.Model.GptqPack
import Mathlib.Algebra.BigOperators.Group.Finset.Basic
import Mathlib.Algebra.BigOperators.Intervals
import Mathlib.Data.Finset.Prod
import Mathlib.Tactic.Ring
import Mathlib.Data.Nat.ModEq
import Mathlib.Tactic.Linarith
import Mathlib.Data.List.Nodup

/-! Definitions used in the statements of `Verif/Props/Triton.lean`. -/

namespace Verif.Triton
open Verif

/-- The code of input `k` and output `n`: the packed weights have one row of words for each
`32 / bits` inputs, `cols` words in a row. -/
def codeAt (b : Nat → Nat) (bits cols k n : Nat) : Nat :=
  b (k / (32 / bits) * cols + n) / 2 ^ (k % (32 / bits) * bits) % 2 ^ bits

/-- The zero point of group `g` and output `n`: stored less one, packed along the outputs, `words`
words for each group. -/
def zeroAt (z : Nat → Nat) (bits words g n : Nat) : Nat :=
  z (g * words + n / (32 / bits)) / 2 ^ (n % (32 / bits) * bits) % 2 ^ bits + 1

/-- The weight that the packed tensors stand for. -/
def weightAt (mem : Mem) (bits N k n : Nat) : ℚ :=
  ((codeAt mem.b bits N k n : ℚ) - zeroAt mem.zeros bits (N / (32 / bits)) (mem.g k) n) * mem.scales (mem.g k * N + n)

/-- Strides of an input with `width` columns, of packed weights with `N` outputs and of an output with
`out` columns, all contiguous. -/
def contiguous (bits N width out : Nat) : Strides :=
  { am := width, ak := 1, bk := N, bn := 1, cm := out, cn := 1, scales := N, zeros := N / (32 / bits) }

/-- `ws` writes the matrix `f` of `rows` and `cols`: each element once, nothing else. -/
def Writes (ws : List (Nat × ℚ)) (rows cols : Nat) (f : Nat → Nat → ℚ) : Prop :=
  ∀ x, ws.filter (fun w => w.1 = x) = if x < rows * cols then [(x, f (x / cols) (x % cols))] else []

/-- A configuration with blocks no larger than given. -/
def cap (m n k : Nat) (c : Config) : Config := { c with bm := min m c.bm, bn := min n c.bn, bk := min k c.bk }

/-- The same tensors in memory: an input of `M` rows and `W` columns, packed weights of `K` inputs and `N`
outputs in `groups` groups. -/
def Agree (M W K N bits groups : Nat) (x y : Mem) : Prop :=
  (∀ i < M * W, x.a i = y.a i) ∧ (∀ i < K / (32 / bits) * N, x.b i = y.b i) ∧ (∀ i < K, x.g i = y.g i) ∧
    (∀ i < groups * N, x.scales i = y.scales i) ∧ ∀ i < groups * (N / (32 / bits)), x.zeros i = y.zeros i

/-- The least power of two from `x` and 16 on. -/
def IsCeil (x y : Nat) : Prop := (∃ e, y = 2 ^ e) ∧ 16 ≤ y ∧ x ≤ y ∧ ∀ z, (∃ e, z = 2 ^ e) → x ≤ z → 16 ≤ z → y ≤ z

/-- The sizes of the blocks and the number of warps are powers of two. -/
def Powers (c : Config) : Prop := (∃ a, c.bm = 2 ^ a) ∧ (∃ a, c.bn = 2 ^ a) ∧ (∃ a, c.bk = 2 ^ a) ∧ ∃ a, c.warps = 2 ^ a

end Verif.Triton
