import Verif.Py

/-! Model of the encodings in
`mmrazor/models/task_modules/predictor/metric_predictor.py`. Choices are any type with decidable
equality; a search group is represented by its key and the choices of its first mutable. -/

namespace Verif.Predictor
open Verif

variable {α : Type} [DecidableEq α]

structure Group (α : Type) where
  key : String
  choices : List α
deriving DecidableEq, Repr

/-- An entry of an exported architecture: a plain choice, or a `DumpChosen` with the list of all
choices in its meta information. -/
inductive Entry (α : Type)
  | plain (c : α)
  | dump (all : Option (List α)) (c : α)
deriving DecidableEq, Repr

def Entry.chosen : Entry α → α
  | .plain c => c
  | .dump _ c => c

inductive Enc | normal | onehot
deriving DecidableEq, Repr

/-- `list.index`. -/
def index (l : List α) (c : α) : Except Err Nat := if c ∈ l then .ok (l.idxOf c) else .error .value

/-- The list an entry is encoded against, lines 105-123. -/
def choicesOf (gs : List (Group α)) (key : String) : Entry α → Except Err (List α)
  | .dump none _ => .error .assertion
  | .dump (some all) _ => .ok all
  | .plain _ => match gs.find? (·.key == key) with
    | some g => .ok g.choices
    | none => .error .key

/-- The one-hot block, lines 108-109 and 122-124. -/
def block (n i : Nat) : List Nat := (List.replicate n 0).set i 1

/-- The two vectors of `model2vector`. -/
structure Vecs where
  normal : List Nat
  onehot : List Nat
deriving DecidableEq, Repr

/-- The loop of `model2vector`, lines 104-129. -/
def encodeLoop (gs : List (Group α)) : List (String × Entry α) → Except Err Vecs
  | [] => .ok ⟨[], []⟩
  | (k, e) :: m => do
    let l ← choicesOf gs k e
    let i ← index l e.chosen
    let v ← encodeLoop gs m
    return ⟨i :: v.normal, block l.length i ++ v.onehot⟩

/-- `model2vector`, lines 85-130. -/
def encode (gs : List (Group α)) (m : List (String × Entry α)) : Except Err Vecs :=
  if m.length ≠ gs.length then .error .assertion else encodeLoop gs m

/-- `preprocess`, lines 182-195, for one architecture. -/
def Vecs.pick (v : Vecs) : Enc → List Nat
  | .normal => v.normal
  | .onehot => v.onehot

/-- `choices[int(index)] if len(choices) > 1 else choices[0]`, line 158. -/
def pickChoice (l : List α) (i : Nat) : Except Err α :=
  match l[if 1 < l.length then i else 0]? with
  | some c => .ok c
  | none => .error .index

/-- The loop of `vector2model`, lines 146-160, on the rest of the vector. -/
def decodeLoop (enc : Enc) : List (Group α) → List Nat → Except Err (List (String × α))
  | [], _ => .ok []
  | g :: gs, v => do
    match enc with
    | .onehot =>
      let some i := (v.take g.choices.length).findIdx? (· == 1) | throw .index
      let c ← pickChoice g.choices i
      return (g.key, c) :: (← decodeLoop enc gs (v.drop g.choices.length))
    | .normal =>
      let i :: v' := v | throw .index
      let c ← pickChoice g.choices i
      return (g.key, c) :: (← decodeLoop enc gs v')

/-- `vector2model`, lines 132-162. `np.squeeze` turns a vector with one entry into a scalar,
which cannot be indexed. -/
def decode (enc : Enc) (gs : List (Group α)) (v : List Nat) : Except Err (List (String × α)) :=
  if v.length = 1 ∧ gs ≠ [] then .error .index else decodeLoop enc gs v

end Verif.Predictor
