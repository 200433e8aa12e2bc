import Verif.Py

/-! Model of `mmrazor/models/utils/make_divisible.py` and
`mmrazor/models/utils/parse_values.py`. -/

namespace Verif.MakeDivisible
open Verif

/-- `make_divisible(value, divisor, min_value=None, min_ratio=0.9)`,
`models/utils/make_divisible.py` lines 9-46.

* lines 29-40: `min_value` defaults to, and is raised to, `divisor`
  (the one-time warning of lines 32-38 is not modelled);
* line 42: `max(min_value, int(value + divisor / 2) // divisor * divisor)`;
* lines 44-45: one more `divisor` if the result is below `min_ratio * value`.

`value` may be an `int` or a `float` in the code; it is an exact rational here,
as is `min_ratio`.  `divisor = 0` makes `//` raise. -/
def makeDivisible (value : ℚ) (divisor : Int) (minValue : Option Int)
    (minRatio : ℚ) : Except Err Int :=
  let m0 := minValue.getD divisor
  let m := if m0 < divisor then divisor else m0
  match pyFloorDiv (pyInt (value + (divisor : ℚ) / 2)) divisor with
  | .error e => .error e
  | .ok k =>
    let new := max m (k * divisor)
    if (new : ℚ) < minRatio * value then .ok (new + divisor) else .ok new

/-- The elements of Python's `range(start, stop, step)` for a positive step, as
a list: `n` elements at most, stopping at the first one `≥ stop`. -/
def rangeUp (stop step : Int) : Nat → Int → List Int
  | 0, _ => []
  | n + 1, cur => if cur < stop then cur :: rangeUp stop step n (cur + step) else []

/-- The elements of Python's `range(start, stop, step)` for a negative step. -/
def rangeDown (stop step : Int) : Nat → Int → List Int
  | 0, _ => []
  | n + 1, cur => if cur > stop then cur :: rangeDown stop step n (cur + step) else []

/-- Python `list(range(start, stop, step))`; `step = 0` raises `ValueError`.
The first argument of `rangeUp`/`rangeDown` bounds the number of elements; the
distance `|stop - start|` is always enough because `|step| ≥ 1`. -/
def pyRange (start stop step : Int) : Except Err (List Int) :=
  if step = 0 then .error .value
  else if 0 < step then .ok (rangeUp stop step (stop - start).toNat start)
  else .ok (rangeDown stop step (start - stop).toNat start)

/-- `_range_to_list`, `models/utils/parse_values.py` lines 11-16: the input must
have exactly three entries `(start, end, step)`; the result is
`list(range(start, end + 1, step))`. -/
def rangeToList (input : List Int) : Except Err (List Int) :=
  match input with
  | [start, stop, step] => pyRange start (stop + 1) step
  | _ => .error .assertion

/-- `parse_values`, `models/utils/parse_values.py` lines 5-18: maps
`_range_to_list` over the candidate lists; the first failure propagates. -/
def parseValues (ls : List (List Int)) : Except Err (List (List Int)) :=
  ls.mapM rangeToList

end Verif.MakeDivisible
