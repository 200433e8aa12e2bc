import Verif.Model.GptqQuantizer

/-! Model of `GPTQMixIn.pack` (`mmrazor/implementations/quantization/gptq/gptq.py`, lines
157-210) and of the unpacking in the Triton kernels and the layer that uses them
(`mmrazor/implementations/quantization/gptq/ops.py`).  The weights of one output feature, and
the zero points of one group, are one list each. -/

namespace Verif.GptqPack
open Verif GptqQuantizer

/-- One word, gptq.py lines 184-185: the codes are or-ed together, each shifted by `bits`
times its place, in 32 bits. -/
def packWord (bits : Nat) (codes : List Nat) : Nat :=
  codes.zipIdx.foldl (fun w c => w ||| ((c.1 <<< (bits * c.2)) % 2 ^ 32)) 0

/-- The words of a list of codes, gptq.py lines 177-189 (and 196-207): `n // 32 * bits`
words of `32 // bits` codes each. -/
def pack (bits : Nat) (codes : List Nat) : Except Err (List Nat) :=
  let words := codes.length / 32 * bits
  if words = 0 then .ok []
  else if bits ∈ [2, 4, 8] then
    .ok ((List.range words).map fun r => packWord bits ((codes.drop (r * (32 / bits))).take (32 / bits)))
  else .error .notImplemented

/-- The code number `k` as the kernel reads it, ops.py lines 300-303, 316 and 336: the word
`k // (32 // bits)`, shifted right, masked.  `none`: outside the packed words. -/
def unpack (bits : Nat) (words : List Nat) (k : Nat) : Option Nat :=
  (words[k / (32 / bits)]?).map fun w => (w >>> (k % (32 / bits) * bits)) % 2 ^ bits

/-- The zero points minus one as unsigned 32-bit numbers, gptq.py lines 194-195. -/
def storeZero (z : Nat) : Nat := (z + (2 ^ 32 - 1)) % 2 ^ 32

/-- gptq.py lines 194-210. -/
def packZeros (bits : Nat) (zeros : List Nat) : Except Err (List Nat) := pack bits (zeros.map storeZero)

/-- The zero point as the kernel reads it, ops.py lines 325-326. -/
def unpackZero (bits : Nat) (words : List Nat) (k : Nat) : Option Nat := (unpack bits words k).map (· + 1)

/-- The code of a quantised weight, gptq.py lines 161-173: `w` the weight, `s` and `z` the
parameters, `sh` the scale rounded to half precision. -/
def codeOf (w s z sh : ℚ) : Int := rhe ((w + z * s) / sh)

/-- Rounding to half precision of a number below the smallest normal half, `2 ^ -14`: a
multiple of `2 ^ -24`. -/
def halfSubnormal (s : ℚ) : ℚ := rhe (s * 2 ^ 24) / 2 ^ 24

/-- The weight the kernel multiplies with, ops.py line 337. -/
def dequant (sh : ℚ) (code zero : Nat) : ℚ := ((code : ℚ) - zero) * sh

/-- Which weights the layer uses in `forward`, ops.py lines 476-492; after quantisation the
original weight is deleted (gptq.py line 312). -/
inductive Used | float | packed
deriving DecidableEq, Repr

def forward (quantised : Bool) (qweight : List (List Nat)) : Except Err Used :=
  if qweight.all (·.all (· = 0)) then (if quantised then .error .attribute else .ok .float) else .ok .packed

end Verif.GptqPack
