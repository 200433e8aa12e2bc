import Verif.Py

/-!
Model of the search for the latest checkpoint,
`/repo/mmrazor/utils/misc.py` 7-38, and of the latency measurement,
`/repo/mmrazor/models/task_modules/estimators/counters/latency_counter.py` 10-135.
-/
namespace Verif.Latest

/-! ### find_latest_checkpoint -/

abbrev Name := List Char

/-- `s.split(c)[-1]`. -/
def lastPiece (c : Char) (s : Name) : Name := (s.reverse.takeWhile (· != c)).reverse

/-- `s.split(c)[0]`. -/
def firstPiece (c : Char) (s : Name) : Name := s.takeWhile (· != c)

/-- Decimal digits, at least one.  Simplification: ASCII digits only. -/
def parseNat (s : Name) : Option Nat :=
  if s ≠ [] ∧ s.all Char.isDigit then some (Nat.ofDigitChars 10 s 0) else none

/-- `int(s)`.  Simplification: an optional sign and ASCII digits; surrounding
blanks, which Python accepts, are refused. -/
def parseInt : Name → Option Int
  | '-' :: s => (parseNat s).map fun n => -(n : Int)
  | '+' :: s => (parseNat s).map fun n => (n : Int)
  | s => (parseNat s).map fun n => (n : Int)

/-- `int(osp.basename(checkpoint).split('_')[-1].split('.')[0])`, misc.py 34. -/
def count (name : Name) : Except Err Int :=
  match parseInt (firstPiece '.' (lastPiece '_' name)) with
  | some n => .ok n
  | none => .error .value

/-- A directory: whether it exists, and the names in it in the order in which
`glob` delivers them (which the operating system decides). -/
structure Dir where
  present : Bool
  names : List Name
deriving DecidableEq

/-- `glob(f'*.{suffix}')`: the names with that ending, hidden files excluded.
Simplification: a suffix has no special characters. -/
def matching (suffix : Name) (d : Dir) : List Name :=
  d.names.filter fun n => ('.' :: suffix).isSuffixOf n && (n.head? != some '.')

/-- One round of the loop, misc.py 33-37. -/
def look (st : Int × Option Name) (name : Name) : Except Err (Int × Option Name) := do
  let n ← count name
  if n > st.1 then pure (n, some name) else pure st

/-- `f'latest.{suffix}'`. -/
def explicitName (suffix : Name) : Name := 'l' :: 'a' :: 't' :: 'e' :: 's' :: 't' :: '.' :: suffix

/-- `find_latest_checkpoint`. -/
def findLatest (suffix : Name) (d : Dir) : Except Err (Option Name) :=
  if !d.present then .ok none
  else if explicitName suffix ∈ d.names then .ok (some (explicitName suffix))
  else if matching suffix d = [] then .ok none
  else do
    let st ← (matching suffix d).foldlM look (-1, none)
    pure st.2

/-! ### Latency -/

/-- Python division of floats. -/
def pdiv (a b : ℚ) : Except Err ℚ := if b = 0 then .error .zeroDivision else .ok (a / b)

/-- `(i + 1) % log_interval == 0`. -/
def logs (i logInterval : Int) : Except Err Bool :=
  if logInterval = 0 then .error .zeroDivision else .ok (decide ((i + 1) % logInterval = 0))

/-- A new value of `fps` together with the printed `1000 / fps`. -/
def report (i warmup : Int) (pure_ : ℚ) : Except Err ℚ := do
  let fps ← pdiv ((i + 1 - warmup : Int) : ℚ) pure_
  let _ ← pdiv 1000 fps
  pure fps

/-- latency_counter.py 116-124: the timed part of a round. -/
def timed (warmup logInterval : Int) (i : Int) (elapsed : ℚ) (st : ℚ × ℚ) :
    Except Err (ℚ × ℚ) :=
  if i ≥ warmup then do
    let p := st.1 + elapsed
    let l ← logs i logInterval
    if l then do
      let fps ← report i warmup p
      pure (p, fps)
    else pure (p, st.2)
  else .ok st

/-- One round of the measurement, latency_counter.py 104-133.  The state is
`(pure_inf_time, fps)`. -/
def round (maxIter warmup logInterval : Int) (elapsed : Nat → ℚ) (st : ℚ × ℚ) (i : Nat) :
    Except Err (ℚ × ℚ) := do
  let st ← timed warmup logInterval i (elapsed i) st
  if (i : Int) + 1 = maxIter then do
    let fps ← report i warmup st.1
    pure (st.1, fps)
  else pure st

/-- `_get_model_latency`: `elapsed i` is the measured time of round `i`. -/
def fps (cuda : Bool) (maxIter warmup logInterval : Int) (elapsed : Nat → ℚ) : Except Err ℚ :=
  if !cuda then .error .notImplemented
  else do
    let st ← (List.range' 1 (maxIter.toNat - 1)).foldlM
      (round maxIter warmup logInterval elapsed) (0, 0)
    pure st.2

/-- `round(1000 / fps, 1)`, with `round1` for Python's rounding to one place. -/
def perImage (round1 : ℚ → ℚ) (f : ℚ) : Except Err ℚ := do
  let t ← pdiv 1000 f
  pure (round1 t)

/-- `get_model_latency` without the string conversion; `elapsed r i` is the time
of round `i` of repetition `r`.  The unit is only a label. -/
def latency (round1 : ℚ → ℚ) (cuda : Bool) (maxIter warmup logInterval repeatNum : Int)
    (elapsed : Nat → Nat → ℚ) : Except Err ℚ :=
  if ¬ repeatNum ≥ 1 then .error .assertion
  else do
    let l ← (List.range repeatNum.toNat).mapM fun r =>
      fps cuda maxIter warmup logInterval (elapsed r)
    let first ← perImage round1 (l.headD 0)
    if repeatNum > 1 then do
      let ts ← l.mapM (perImage round1)
      pure (ts.sum / ts.length)
    else pure first

end Verif.Latest
