import Verif.Py
import Mathlib.Data.Rat.Floor

/-! Model of `mmrazor/implementations/quantization/gptq/quantizer.py` for one row (one set
of parameters); numbers are exact rationals. -/

namespace Verif.GptqQuantizer
open Verif

/-- `torch.round`: to the nearest integer, halves to the even one. -/
def rhe (x : ℚ) : Int :=
  let f := ⌊x⌋
  if x - f < 1 / 2 then f
  else if 1 / 2 < x - f then f + 1
  else if f % 2 = 0 then f else f + 1

/-- The parameters of a row. `maxq` is `2 ** bits - 1`, negative for ternary. -/
structure P where
  scale : ℚ
  zero : ℚ
deriving DecidableEq, Repr

/-- `configure`, lines 15-35: the largest code. -/
def maxqOf (bits : Nat) (trits : Bool) : Int := if trits then -1 else 2 ^ bits - 1

/-- `_quantize`, lines 37-43. -/
def quantize (maxq : Int) (p : P) (x : ℚ) : ℚ :=
  if maxq < 0 then (if p.scale / 2 < x then p.scale else 0) + (if x < p.zero / 2 then p.zero else 0)
  else p.scale * (max 0 (min ((rhe (x / p.scale) : ℚ) + p.zero) maxq) - p.zero)

/-- The range of a row, lines 65-77. -/
def range (sym : Bool) (row : List ℚ) : ℚ × ℚ :=
  let lo := row.foldl min 0
  let hi := row.foldl max 0
  let hi' := if sym then max |lo| hi else hi
  let lo' := if sym ∧ lo < 0 then -hi' else lo
  if lo' = 0 ∧ hi' = 0 then (-1, 1) else (lo', hi')

/-- The parameters for a given range, lines 79-87 and 96-98. -/
def ofRange (maxq : Int) (sym : Bool) (r : ℚ × ℚ) : P :=
  if maxq < 0 then ⟨r.2, r.1⟩
  else ⟨(r.2 - r.1) / maxq, if sym then (maxq + 1) / 2 else rhe (-r.1 / ((r.2 - r.1) / maxq))⟩

/-- The settings of the grid search: `grid`, the number of steps
`int(maxshrink * grid)`, and the function `|e| ** norm`. -/
structure Mse where
  grid : Nat
  steps : Nat
  pen : ℚ → ℚ

/-- The error of a row under parameters `p`, lines 99-104. -/
def rowError (m : Mse) (maxq : Int) (row : List ℚ) (p : P) : ℚ :=
  (row.map fun x => m.pen |quantize maxq p x - x|).sum

/-- The candidate number `i` of the grid search, lines 92-98. -/
def candidate (m : Mse) (maxq : Int) (sym : Bool) (r : ℚ × ℚ) (i : Nat) : P :=
  let p : ℚ := 1 - (i : ℚ) / m.grid
  ofRange maxq sym (p * r.1, p * r.2)

/-- The search loop, lines 89-109, from candidate `i` on; `best` is `none` for infinity. -/
def search (m : Mse) (maxq : Int) (sym : Bool) (r : ℚ × ℚ) (row : List ℚ) (best : Option ℚ) (cur : P) (i : Nat) : Nat → P
  | 0 => cur
  | n + 1 =>
    let c := candidate m maxq sym r i
    let e := rowError m maxq row c
    if best.all (fun b => decide (e < b)) then search m maxq sym r row (some e) c (i + 1) n
    else search m maxq sym r row best cur (i + 1) n

/-- `find_params`, lines 45-109. -/
def findParams (maxq : Int) (sym : Bool) (mse : Option Mse) (row : List ℚ) : P :=
  let r := range sym row
  match mse with
  | none => ofRange maxq sym r
  | some m => search m maxq sym r row none (ofRange maxq sym r) 0 m.steps

/-- `quantize`, lines 128-133: a quantiser whose scale is zero (not ready) leaves the
number alone. -/
def quantizeIfReady (maxq : Int) (p : P) (x : ℚ) : ℚ := if p.scale ≠ 0 then quantize maxq p x else x

end Verif.GptqQuantizer
