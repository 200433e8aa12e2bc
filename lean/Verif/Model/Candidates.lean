import Verif.Py
import Verif.Sort

/-! Model of `mmrazor/structures/subnet/candidate.py`.

Every candidate is a mutable dictionary object; pools hold references to them, so
that sharing (the same object in a pool twice, or in two pools) is visible. Objects
live in a heap and are referred to by position. -/

namespace Verif.Candidates
open Verif

/-- The four indicators, `candidate.py` line 39. -/
inductive Ind where
  | score
  | flops
  | params
  | latency
  deriving DecidableEq, Repr

/-- One candidate: `{subnet: {score, flops, params, latency}}`. -/
structure Entry (S : Type) where
  subnet : S
  value : Ind → ℚ

/-- All candidate objects, and one pool (`Candidates.data`) of references, which
are positions in the heap. -/
structure State (S : Type) where
  heap : List (Entry S)
  pool : List Nat

variable {S : Type}

/-- `value[key] = v` on one object. -/
def Entry.set (e : Entry S) (k : Ind) (v : ℚ) : Entry S :=
  { e with value := fun k' => if k' = k then v else e.value k' }

/-- Indicator `k` of the object `r` (0 for a dangling reference, which the
invariants exclude). -/
def indOf (heap : List (Entry S)) (k : Ind) (r : Nat) : ℚ :=
  match heap[r]? with
  | some e => e.value k
  | none => 0

/-- Operations on a pool. `addNew` is `append`/`extend` with plain subnets (lines
118-119, 130-136, 143-149), `add` is `append`/`extend` with already formatted
candidate objects, `insert` is line 138-141 with one formatted object. -/
inductive Op (S : Type) where
  | addNew (subnets : List S)
  | add (refs : List Nat)
  | insert (i : Nat) (r : Nat)
  | setResource (i : Nat) (k : Ind) (v : ℚ)
  | updateResources (resources : List (List (Ind × ℚ))) (start : Nat)
  | sortBy (k : Ind) (reverse : Bool)

/-- Python `list.insert(i, x)`. -/
def pyInsert {α : Type} (l : List α) (i : Nat) (x : α) : List α := l.take i ++ x :: l.drop i

/-- `value.update(resources)`, line 171. -/
def updateOne (heap : List (Entry S)) (r : Nat) (kvs : List (Ind × ℚ)) : List (Entry S) :=
  heap.modify r (fun e => kvs.foldl (fun e kv => e.set kv.1 kv.2) e)

/-- One operation and the exception it raises, if any. -/
def step (st : State S) : Op S → State S × Option Err
  | .addNew ss =>
    ({ heap := st.heap ++ ss.map (fun s => ⟨s, fun _ => -1⟩),
       pool := st.pool ++ List.range' st.heap.length ss.length }, none)
  | .add rs => ({ st with pool := st.pool ++ rs }, none)
  | .insert i r => ({ st with pool := pyInsert st.pool i r }, none)
  | .setResource i k v => match st.pool[i]? with
    | some r => ({ st with heap := st.heap.modify r (fun e => e.set k v) }, none)
    | none => (st, some .index)
  | .updateResources res start =>
    if st.pool.length ≥ start + res.length then
      let targets := ((st.pool.drop start).take res.length).zip res
      ({ st with heap := targets.foldl (fun h p => updateOne h p.1 p.2) st.heap }, none)
    else (st, some .assertion)
  | .sortBy k reverse =>
    let le := fun a b =>
      if reverse then decide (indOf st.heap k a ≥ indOf st.heap k b)
      else decide (indOf st.heap k a ≤ indOf st.heap k b)
    ({ st with pool := Verif.sortBy le st.pool }, none)

/-- State after a history of operations. -/
def run (st : State S) (ops : List (Op S)) : State S := ops.foldl (fun st o => (step st o).1) st

end Verif.Candidates
