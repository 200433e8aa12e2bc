import Verif.Py
import Verif.Sort

/-! Model of `mmrazor/models/mutables/mutable_value/mutable_value.py` and of the
`is_fixed` flag of `mmrazor/models/mutables/base_mutable.py`. -/

namespace Verif.MutableValue
open Verif

/-- State of a `MutableValue`: `_value_list`, `_current_choice`, `_is_fixed`. -/
structure MV (α : Type) where
  choices : List α
  current : α
  fixed : Bool
  deriving DecidableEq, Repr

/-- `MutableValue.__init__`, `mutable_value.py` lines 31-43 (all candidates have
one Lean type, so the type check of lines 45-58 always passes). No default and
no candidate is an `IndexError`; a default outside the list is the setter's
`ValueError`. -/
def init {α : Type} [DecidableEq α] (values : List α) (default : Option α) : Except Err (MV α) :=
  match default with
  | some v => if v ∈ values then .ok ⟨values, v, false⟩ else .error .value
  | none => match values with
    | [] => .error .index
    | v :: vs => .ok ⟨v :: vs, v, false⟩

/-- `OneShotMutableValue.__init__`, `mutable_value.py` lines 189-203: candidates
sorted, default the last (largest) one. -/
def initOneShot (values : List Int) (default : Option Int) : Except Err (MV Int) :=
  let vs := sortBy (fun a b => decide (a ≤ b)) values
  match default with
  | some v => init vs (some v)
  | none => match vs.getLast? with
    | none => .error .index
    | some v => init vs (some v)

/-- Calls on a value mutable. `sample i` stands for `sample_choice()` with
`random.choice` returning the `i`-th candidate; `setFixed` is an assignment to
`is_fixed`. -/
inductive Op (α : Type) where
  | assign (c : α)
  | fix (c : α)
  | dump
  | sample (i : Nat)
  | setFixed (b : Bool)
  deriving DecidableEq, Repr

/-- What a call returns. -/
inductive Ret (α : Type) where
  | none
  | val (v : α)
  | dumped (chosen : α) (all : List α)
  | err (e : Err)
  deriving DecidableEq, Repr

/-- The `current_choice` setter, lines 111-118. It does not look at `is_fixed`. -/
def assign {α : Type} [DecidableEq α] (m : MV α) (c : α) : MV α × Ret α :=
  if c ∈ m.choices then ({ m with current := c }, .none) else (m, .err .value)

/-- The `is_fixed` setter, `base_mutable.py` lines 63-73. -/
def setFixed {α : Type} (m : MV α) (b : Bool) : MV α × Ret α :=
  if m.fixed then (m, .err .attribute) else ({ m with fixed := b }, .none)

/-- `fix_chosen`, lines 70-82. -/
def fixChosen {α : Type} [DecidableEq α] (m : MV α) (c : α) : MV α × Ret α :=
  if m.fixed then (m, .err .runtime)
  else if c ∈ m.choices then
    match assign m c with
    | (m', .none) => setFixed m' true
    | r => r
  else (m, .err .assertion)

/-- One call; `dump_chosen` is lines 84-95, `sample_choice` lines 205-211. -/
def step {α : Type} [DecidableEq α] (m : MV α) : Op α → MV α × Ret α
  | .assign c => assign m c
  | .fix c => fixChosen m c
  | .dump => (m, .dumped m.current m.choices)
  | .sample i => match m.choices[i]? with
    | some v => (m, .val v)
    | none => (m, .err .index)
  | .setFixed b => setFixed m b

/-- State after a history of calls. -/
def run {α : Type} [DecidableEq α] (m : MV α) (ops : List (Op α)) : MV α :=
  ops.foldl (fun m o => (step m o).1) m

/-- `max_choice`, lines 213-220. -/
def maxChoice (m : MV Int) : Option Int := m.choices.getLast?

/-- `min_choice`, lines 222-229. -/
def minChoice (m : MV Int) : Option Int := m.choices.head?

end Verif.MutableValue
