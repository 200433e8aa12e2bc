import Verif.Py
import Verif.Sort

/-! Model of `mmrazor/utils/index_dict.py` and of
`mmrazor/models/mutables/mutable_channel/mutable_channel_container.py`. -/

namespace Verif.Container
open Verif

/-- A channel range `[start, end)`; Python `Tuple[int, int]`. -/
abbrev Key := Int × Int

/-- What can be stored for a range: a mutable channel registered by the caller
(an object, named by an `α`; its live mask is looked up when the container is
read) or a `SimpleMutableChannel(n)` created by the container itself
(`simple_mutable_channel.py` lines 22-24: a mask of `n` ones). -/
inductive Chan (α : Type) where
  | reg (a : α)
  | simple (n : Nat)
  deriving DecidableEq, Repr

/-- The `IndexDict`, as the list of its items in iteration order. -/
abbrev Dict (α : Type) := List (Key × Chan α)

/-- The test of one existing range `(s, e)` against `(start, end)`,
`index_dict.py` lines 51-52. -/
def hits (s e start stop : Int) : Bool :=
  (decide (s ≤ start) && decide (start < e)) || (decide (s < stop) && decide (stop < e)) ||
    (decide (s < start) && decide (stop < e))

/-- `IndexDict.__contains__`, `index_dict.py` lines 42-54. The type check of
line 47 always passes here. -/
def contains {α : Type} (d : Dict α) (k : Key) : Bool :=
  d.any (fun x => x.1 == k) || d.any (fun x => hits x.1.1 x.1.2 k.1 k.2)

/-- Python's order of integer pairs. -/
def keyLe (a b : Key) : Bool := decide (a.1 < b.1) || (decide (a.1 = b.1) && decide (a.2 ≤ b.2))

/-- `_sort`, `index_dict.py` lines 30-35: the items sorted by key (keys are
distinct, so the values are never compared). -/
def sortItems {α : Type} (d : Dict α) : Dict α := sortBy (fun a b => keyLe a.1 b.1) d

/-- `IndexDict.__setitem__`, `index_dict.py` lines 22-28 (with
`_assert_no_over_lap`, lines 37-40). An exact duplicate key is rejected by the
overlap assertion, so the item is always a new one. -/
def setItem {α : Type} (d : Dict α) (k : Key) (v : Chan α) : Except Err (Dict α) :=
  if k.1 < k.2 then
    if contains d k then .error .assertion else .ok (sortItems (d ++ [(k, v)]))
  else .error .assertion

/-- `copy.copy` of an `IndexDict`: `OrderedDict` has no `__copy__`, so the copy
is rebuilt with one `y[key] = value` per item, i.e. through `__setitem__`. -/
def copyDict {α : Type} (d : Dict α) : Except Err (Dict α) :=
  d.foldlM (fun acc x => setItem acc x.1 x.2) []

/-- `SimpleMutableChannel(n)`, `simple_mutable_channel.py` lines 22-24:
`torch.ones([n])` raises `RuntimeError` for a negative size. -/
def mkSimple {α : Type} (n : Int) : Except Err (Chan α) :=
  if n < 0 then .error .runtime else .ok (.simple n.toNat)

/-- The loop of `_fill_unregistered_range`, `mutable_channel_container.py`
lines 114-119, over the keys of the copy. Note the argument
`last_end - start` of line 118. Returns the dictionary and `last_end`. -/
def fillLoop {α : Type} : List Key → Dict α → Int → Except Err (Dict α × Int)
  | [], d, last => .ok (d, last)
  | k :: ks, d, last =>
    if last < k.1 then
      match mkSimple (last - k.1) with
      | .error e => .error e
      | .ok c =>
        match setItem d (last, k.1) c with
        | .error e => .error e
        | .ok d' => fillLoop ks d' k.2
    else fillLoop ks d k.2

/-- `_fill_unregistered_range`, `mutable_channel_container.py` lines 106-123. -/
def fill {α : Type} (n : Int) (d : Dict α) : Except Err (Dict α) :=
  match copyDict d with
  | .error e => .error e
  | .ok c =>
    match fillLoop (c.map (·.1)) d 0 with
    | .error e => .error e
    | .ok (d', last) =>
      if last < n then
        match mkSimple (n - last) with
        | .error e => .error e
        | .ok c => setItem d' (last, n) c
      else .ok d'

/-- The loop of `_assert_mutables_valid`, lines 99-104. -/
def validFrom (n : Int) : Int → List Key → Bool
  | last, [] => decide (last = n)
  | last, k :: ks => decide (k.1 = last) && validFrom n k.2 ks

/-- The mask of one stored mutable. -/
def maskOf {α : Type} (env : α → List Bool) : Chan α → List Bool
  | .reg a => env a
  | .simple n => List.replicate n true

/-- `current_choice` / `current_mask`, `mutable_channel_container.py` lines
37-48 and 60-63, with `_assert_mutables_valid`, lines 95-104. Returns the
container state left behind and the mask (or the exception). When filling
raises, the dictionary is left as it was: with a negative size the first filler
already raises, and the last registration is the only other one. `env` gives
the live mask of every registered mutable. -/
def currentMask {α : Type} (env : α → List Bool) (n : Int) (d : Dict α) :
    Dict α × Except Err (List Bool) :=
  if d.isEmpty then (d, .ok (List.replicate n.toNat true))
  else
    match fill n d with
    | .error e => (d, .error e)
    | .ok d' =>
      if validFrom n 0 (d'.map (·.1)) then
        (d', .ok (d'.flatMap (fun x => maskOf env x.2)))
      else (d', .error .assertion)

/-- The calls a user can make on a container of `n` channels. -/
inductive Op (α : Type) where
  | register (a : α) (start stop : Int)
  | read (env : α → List Bool)

/-- One call; a rejected registration leaves the dictionary unchanged
(`register_mutable`, lines 67-72). -/
def step {α : Type} (n : Int) (d : Dict α) : Op α → Dict α
  | .register a s e => match setItem d (s, e) (.reg a) with
    | .ok d' => d'
    | .error _ => d
  | .read env => (currentMask env n d).1

/-- The container after a history of calls. -/
def run {α : Type} (n : Int) (ops : List (Op α)) : Dict α := ops.foldl (step n) []

end Verif.Container
