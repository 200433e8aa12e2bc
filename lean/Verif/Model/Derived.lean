import Verif.Model.MakeDivisible
import Verif.Model.SeqChannel

/-! Model of `mmrazor/models/mutables/derived_mutable.py` and of the operators of
`mmrazor/models/mutables/mutable_channel/sequential_mutable_channel.py`.

A derived mutable is a pair of closures over its sources. It is modelled as an
expression over numbered sources, evaluated in a store that holds the current
state of every source. Source channels are `SquentialMutableChannel`s in number
mode. `derive_concat_mutable` of `m1, ..., mk` is the iterated binary `concat`
(sum of choices, concatenation of masks). -/

namespace Verif.Derived
open Verif SeqChannel MakeDivisible

/-- A `OneShotMutableValue` used as a ratio: current choice, largest candidate,
fixed flag. -/
structure Val where
  cur : ℚ
  max : ℚ
  fixed : Bool
  deriving DecidableEq, Repr

/-- Current state of all sources. -/
structure Store where
  chan : Nat → Seq
  val : Nat → Val

/-- Derived mutables. -/
inductive Expr where
  /-- a source channel -/
  | chan (i : Nat)
  /-- `_expand_choice_fn`/`_expand_mask_fn` with an `int` ratio -/
  | expandInt (e : Expr) (r : Int)
  /-- the same with a `float` ratio -/
  | expandFloat (e : Expr) (q : ℚ)
  /-- `_divide_choice_fn` with divisor `divC` and `_divide_mask_fn` with `divM` -/
  | divide (e : Expr) (ratio : Int) (divC divM : Int)
  /-- `SquentialMutableChannel.__mul__` with a `OneShotMutableValue` -/
  | mulValue (i : Nat) (v : Nat)
  /-- `_concat_choice_fn`/`_concat_mask_fn` -/
  | concat (a b : Expr)
  deriving DecidableEq, Repr

/-- `_divide_and_divise`, `derived_mutable.py` lines 81-85
(`min_ratio` has its default 0.9). -/
def divideAndDivise (x ratio divisor : Int) : Except Err Int :=
  match pyFloorDiv x ratio with
  | .error e => .error e
  | .ok y => makeDivisible y divisor none (9 / 10)

/-- `choice_fn()`: `_expand_choice_fn` lines 45-52, `_divide_choice_fn` 88-96,
`_concat_choice_fn` 119-125, and `expand_choice_fn` of
`sequential_mutable_channel.py` lines 79-85. -/
def evalChoice (σ : Store) : Expr → Except Err Int
  | .chan i => .ok (popcount (σ.chan i).mask)
  | .expandInt e r => (evalChoice σ e).map (fun c => c * r)
  | .expandFloat e q => (evalChoice σ e).map (fun c => pyInt (c * q))
  | .divide e ratio divC _ => match evalChoice σ e with
    | .error x => .error x
    | .ok c => divideAndDivise c ratio divC
  | .mulValue i v => .ok (pyInt ((popcount (σ.chan i).mask : ℚ) * (σ.val v).cur))
  | .concat a b => match evalChoice σ a, evalChoice σ b with
    | .ok x, .ok y => .ok (x + y)
    | .error x, _ => .error x
    | _, .error x => .error x

/-- `torch.zeros(size).bool()` followed by `mask[:choice] = True`; a negative
size raises `RuntimeError`. -/
def zerosPrefix (size choice : Int) : Except Err (List Bool) :=
  if size < 0 then .error .runtime else .ok (prefixMask size.toNat choice)

/-- `mask_fn()`: `_expand_mask_fn` lines 55-78, `_divide_mask_fn` 99-116,
`_concat_mask_fn` 128-134, and `expand_mask_fn` of
`sequential_mutable_channel.py` lines 87-103. -/
def evalMask (σ : Store) : Expr → Except Err (List Bool)
  | .chan i => .ok (σ.chan i).mask
  | .expandInt e r => match evalMask σ e, evalChoice σ e with
    | .ok m, .ok c => zerosPrefix (m.length * r) (c * r)
    | .error x, _ => .error x
    | _, .error x => .error x
  | .expandFloat e q => match evalMask σ e, evalChoice σ e with
    | .ok m, .ok c => zerosPrefix (pyInt (m.length * q)) (pyInt (c * q))
    | .error x, _ => .error x
    | _, .error x => .error x
  | .divide e ratio _ divM => match evalMask σ e, evalChoice σ e with
    | .ok m, .ok c => match divideAndDivise m.length ratio divM, divideAndDivise c ratio divM with
      | .ok size, .ok choice => zerosPrefix size choice
      | .error x, _ => .error x
      | _, .error x => .error x
    | .error x, _ => .error x
    | _, .error x => .error x
  | .mulValue i v =>
    zerosPrefix (pyInt (((σ.chan i).mask.length : ℚ) * (σ.val v).max))
      (pyInt ((popcount (σ.chan i).mask : ℚ) * (σ.val v).cur))
  | .concat a b => match evalMask σ a, evalMask σ b with
    | .ok x, .ok y => .ok (x ++ y)
    | .error x, _ => .error x
    | _, .error x => .error x

/-- A source: channel or value. -/
inductive Src where
  | chan (i : Nat)
  | val (i : Nat)
  deriving DecidableEq, Repr

/-- `_trace_source_mutables`, lines 396-431: the mutables found in the closures,
with the sources of derived ones. -/
def sources : Expr → List Src
  | .chan i => [.chan i]
  | .expandInt e _ => sources e
  | .expandFloat e _ => sources e
  | .divide e _ _ _ => sources e
  | .mulValue i v => [.chan i, .val v]
  | .concat a b => sources a ++ sources b

/-- `is_fixed` of one source. -/
def srcFixed (σ : Store) : Src → Bool
  | .chan i => (σ.chan i).fixed
  | .val v => (σ.val v).fixed

/-- `DerivedMutable.is_fixed`, lines 315-322. -/
def isFixed (σ : Store) (e : Expr) : Bool := (sources e).all (srcFixed σ)

/-- The ratio argument of the derive methods. -/
inductive Ratio where
  | int (r : Int)
  | float (q : ℚ)
  /-- a `BaseMutable` (here a value mutable) -/
  | mutable (v : Nat)
  deriving DecidableEq, Repr

/-- `derive_expand_mutable`, lines 144-172, called in store `σ`: the current
choice of a mutable ratio is read once, when deriving (lines 153-155). -/
def deriveExpand (σ : Store) (e : Expr) : Ratio → Expr
  | .int r => .expandInt e r
  | .float q => .expandFloat e q
  | .mutable v => .expandFloat e (σ.val v).cur

/-- `derive_divide_mutable`, lines 174-203, called in store `σ`: for a `float` or
mutable ratio the choice uses divisor 1 and the mask the given divisor. -/
def deriveDivide (σ : Store) (e : Expr) (divisor : Int) : Ratio → Expr
  | .int r => .divide e r divisor divisor
  | .float q => .divide e (pyInt q) 1 divisor
  | .mutable v => .divide e (pyInt (σ.val v).cur) 1 divisor

/-! ### The `choices` property -/

/-- `itertools.product` of the candidate lists. -/
def product {α : Type} : List (List α) → List (List α)
  | [] => [[]]
  | xs :: rest => xs.flatMap (fun x => (product rest).map (x :: ·))

/-- `for m, choice in zip(sources, item): m.current_choice = choice`. -/
def setAll {α : Type} (σ : Nat → α) : List Nat → List α → Nat → α
  | i :: is, c :: cs => setAll (fun j => if j = i then c else σ j) is cs
  | _, _ => σ

/-- The loop of lines 338-343: the derived choices, and the store left behind. -/
def choicesLoop {α β : Type} (f : (Nat → α) → β) (ids : List Nat) :
    List (List α) → (Nat → α) → List β × (Nat → α)
  | [], σ => ([], σ)
  | item :: items, σ =>
    let σ' := setAll σ ids item
    let r := choicesLoop f ids items σ'
    (f σ' :: r.1, r.2)

/-- `DerivedMutable.choices`, lines 330-348: `ids` are the sources in the
iteration order of the set, `cands` their candidates; every assignment is legal
because the values come from the candidates. -/
def choices {α β : Type} (f : (Nat → α) → β) (ids : List Nat) (cands : Nat → List α)
    (σ : Nat → α) : List β × (Nat → α) :=
  let r := choicesLoop f ids (product (ids.map cands)) σ
  (r.1, setAll r.2 ids (ids.map σ))

end Verif.Derived
