import Mathlib.Data.Rat.Floor
import Mathlib.Algebra.Order.Field.Rat

/-! IEEE-754 double rounding (round to nearest, ties to even) of a positive
rational in the normal range, on exact rationals, so that it evaluates in the
kernel. Zero, negative numbers, subnormals and overflow are not needed here:
`fl64` returns non-positive arguments unchanged. -/

namespace Verif

/-- `num / den` rounded to the nearest natural number, ties to even. -/
def roundHalfEven (num den : Nat) : Nat :=
  let q := num / den
  let r := num % den
  if 2 * r < den then q
  else if den < 2 * r then q + 1
  else if q % 2 = 0 then q else q + 1

/-- `num / den` scaled by `2 ^ s`, as a fraction. -/
def scale2 (num den : Nat) (s : Int) : Nat × Nat :=
  if 0 ≤ s then (num * 2 ^ s.toNat, den) else (num, den * 2 ^ (-s).toNat)

/-- Round a positive rational to 53 significant bits. -/
def fl64 (q : ℚ) : ℚ :=
  if q ≤ 0 then q
  else
    let num := q.num.toNat
    let den := q.den
    let s0 : Int := 52 - ((Nat.log2 num : Int) - (Nat.log2 den : Int))
    let p0 := scale2 num den s0
    let s : Int := if p0.1 < 2 ^ 52 * p0.2 then s0 + 1 else s0
    let p := scale2 num den s
    let m := roundHalfEven p.1 p.2
    let r := scale2 m 1 (-s)
    (r.1 : ℚ) / r.2

/-- The rational arithmetic a piece of Python uses for `float`s: exact, or IEEE
doubles. -/
structure Arith where
  mul : ℚ → ℚ → ℚ
  div : ℚ → ℚ → ℚ

/-- Exact arithmetic. -/
def exact : Arith := ⟨(· * ·), (· / ·)⟩

/-- IEEE double arithmetic on positive normal numbers. -/
def ieee : Arith := ⟨fun a b => fl64 (a * b), fun a b => fl64 (a / b)⟩

example : fl64 (1 / 10) = 3602879701896397 / 36028797018963968 := by decide +kernel
example : fl64 3 = 3 ∧ fl64 (1 / 2) = 1 / 2 := by decide +kernel
/-- Python: `52 * (15 / 52) = 14.999999999999998`. -/
example : ieee.mul 52 (ieee.div 15 52) = 15 - 1 / 2 ^ 49 := by decide +kernel

end Verif
