import Verif.Py
import Mathlib.Data.Rat.Defs

/-! Model of `CRDDataset` (`mmrazor/datasets/crd_dataset_wrapper.py`). The random choices are
parameters: `perm c l` is `np.random.permutation(l)` drawn for class `c`, and `choice` is
`np.random.choice`. Arrays of arrays of different lengths are allowed, as with numpy before
1.24. -/

namespace Verif.Crd
open Verif

/-- The labels of the wrapped dataset, and the settings. -/
structure Cfg where
  labels : List Nat
  numClasses : Option Nat
  negNum : Nat
  percent : ℚ
  mode : String

/-- The random generator: permutations, and choices of so many elements, with or without
replacement. -/
structure Rand where
  perm : Nat → List Nat → List Nat
  choice : List Nat → Nat → Bool → List Nat

/-- `max(...) + 1`, lines 76-78: a dataset without items is a `ValueError`. -/
def classes (c : Cfg) : Except Err Nat :=
  match c.numClasses with
  | some n => .ok n
  | none => if c.labels = [] then .error .value else .ok (c.labels.foldl max 0 + 1)

/-- `cls_positive`, lines 85-89: the items of a class. -/
def positive (c : Cfg) (k : Nat) : List Nat := (List.range c.labels.length).filter fun i => c.labels[i]? == some k

/-- `cls_negative`, lines 91-98: the items of the other classes, class after class. -/
def negativeAll (c : Cfg) (n k : Nat) : List Nat := (List.range n).flatMap fun j => if j = k then [] else positive c j

/-- The shortened negatives, lines 109-114: `n` is computed from the first class (an
`IndexError` without classes). -/
def negative (c : Cfg) (r : Rand) (n k : Nat) : List Nat :=
  if 0 < c.percent ∧ c.percent < 1 then
    (r.perm k (negativeAll c n k)).take (pyInt ((negativeAll c n 0).length * c.percent)).toNat
  else negativeAll c n k

/-- `_parse_fullset_contrast_info`, lines 65-117: the tables, or the error. -/
def parse (c : Cfg) (r : Rand) : Except Err (Nat × (Nat → List Nat)) := do
  if ¬ (c.mode = "exact" ∨ c.mode = "random") then throw .assertion
  let n ← classes c
  if c.labels.any (n ≤ ·) then throw .index
  if n = 0 ∧ 0 < c.percent ∧ c.percent < 1 then throw .index
  return (n, fun k => negative c r n k)

/-- `np.random.choice(l, k, replace)`: an error for an empty array, unless nothing is taken. -/
def draw (r : Rand) (l : List Nat) (k : Nat) (replace : Bool) : Except Err (List Nat) :=
  if l = [] ∧ k ≠ 0 then .error .value else .ok (r.choice l k replace)

/-- The positive of an item of class `k`, lines 129-136 (other modes were refused before). -/
def drawPos (c : Cfg) (r : Rand) (k idx : Nat) : Except Err (List Nat) :=
  if c.mode = "exact" then .ok [idx] else draw r (positive c k) 1 true

/-- `_get_contrast_info`, lines 127-146: the indices for item `idx`. -/
def contrast (c : Cfg) (r : Rand) (neg : Nat → List Nat) (idx : Nat) : Except Err (List Nat) := do
  let some k := c.labels[idx]? | throw .index
  let pos ← drawPos c r k idx
  let negs ← draw r (neg k) c.negNum (decide ((neg k).length < c.negNum))
  return pos ++ negs

/-- An item of the dataset in training, lines 219-230: `prepare` tells whether the pipeline of
the wrapped dataset keeps an item, `another` the indices drawn by `_rand_another`. -/
def getItem (c : Cfg) (r : Rand) (neg : Nat → List Nat) (prepare : Nat → Bool) : (another : List Nat) → Nat → Except Err (Nat × List Nat)
  | [], idx => do
    let l ← contrast c r neg idx
    if prepare idx then return (idx, l) else throw .runtime
  | a :: as, idx => do
    let l ← contrast c r neg idx
    if prepare idx then return (idx, l) else getItem c r neg prepare as a

end Verif.Crd
