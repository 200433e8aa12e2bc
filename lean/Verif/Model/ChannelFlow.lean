import Verif.Py

/-! Model of `mmrazor/structures/graph/channel_flow.py`.

Channel elements are numbers. Python's recursion limit (line 10 sets it to 2^20) is
the first argument of the recursive functions; exceeding it raises `RecursionError`,
reported as `Err.runtime`. The `_subs` sets are lists read as sets. -/

namespace Verif.ChannelFlow
open Verif

/-- `_parent` and `_subs` of every `ChannelElem`, lines 27-28. -/
structure St where
  parent : Nat → Option Nat
  subs : Nat → List Nat

/-- No ties yet. -/
def St.init : St := ⟨fun _ => none, fun _ => []⟩

/-- Function update. -/
def upd {A : Type} (f : Nat → A) (k : Nat) (v : A) : Nat → A := fun x => if x = k then v else f x

/-- `_unset_parent`, lines 118-123. -/
def unsetParent (st : St) (x : Nat) : Except Err St :=
  match st.parent x with
  | none => .error .assertion
  | some p =>
    if x ∈ st.subs p then
      .ok ⟨upd st.parent x none, upd st.subs p ((st.subs p).filter (fun y => decide (y ≠ x)))⟩
    else .error .key

/-- The last two lines of `_set_parent`, 115-116. -/
def attach (st : St) (x p : Nat) : St := ⟨upd st.parent x (some p), upd st.subs p (x :: st.subs p)⟩

/-- `root`, lines 91-100, including the path compression; `_set_parent` (lines
111-116) is written out, its second assertion asks for the root of the new parent. -/
def root : Nat → St → Nat → Except Err (Nat × St)
  | 0, _, _ => .error .runtime
  | limit + 1, st, x =>
    match st.parent x with
    | none => .ok (x, st)
    | some p =>
      match root limit st p with
      | .error e => .error e
      | .ok (r, st1) =>
        match unsetParent st1 x with
        | .error e => .error e
        | .ok st2 =>
          if st2.parent x ≠ none then .error .assertion
          else
            match root limit st2 r with
            | .error e => .error e
            | .ok (rr, st3) =>
              if rr = x then .error .assertion else .ok (r, attach st3 x r)

/-- `_set_parent`, lines 111-116. -/
def setParent (limit : Nat) (st : St) (x p : Nat) : Except Err St :=
  if st.parent x ≠ none then .error .assertion
  else
    match root limit st p with
    | .error e => .error e
    | .ok (rr, st') => if rr = x then .error .assertion else .ok (attach st' x p)

/-- `union_two`, lines 35-41. -/
def union (limit : Nat) (st : St) (a b : Nat) : Except Err St :=
  match root limit st a with
  | .error e => .error e
  | .ok (r1, st1) =>
    match root limit st1 b with
    | .error e => .error e
    | .ok (r2, st2) => if r1 = r2 then .ok st2 else setParent limit st2 r2 r1

/-- `subs`, lines 102-109. -/
def subsOf : Nat → St → Nat → Except Err (List Nat)
  | 0, _, _ => .error .runtime
  | limit + 1, st, x =>
    match (st.subs x).mapM (subsOf limit st) with
    | .error e => .error e
    | .ok ls => .ok (x :: st.subs x ++ ls.flatten)

/-- `owing_elem_set`, lines 49-53. -/
def elemSet (limit : Nat) (st : St) (x : Nat) : Except Err (List Nat × St) :=
  match root limit st x with
  | .error e => .error e
  | .ok (r, st') =>
    match subsOf limit st' r with
    | .error e => .error e
    | .ok l => .ok (l, st')

/-- Ties one after another. -/
def unionAll (limit : Nat) : List (Nat × Nat) → St → Except Err St
  | [], st => .ok st
  | (a, b) :: rest, st =>
    match union limit st a b with
    | .error e => .error e
    | .ok st' => unionAll limit rest st'

/-- Operations: tie two tensors (lists of elements; lines 143-148), expand a tensor
into a new one whose elements are numbered from `fresh` (lines 158-165), or ask for
the root of an element. `ChannelTensor.cat` and slices only rearrange elements. -/
inductive Op where
  | tie (t1 t2 : List Nat)
  | expand (t : List Nat) (ratio fresh : Nat)
  | find (x : Nat)

/-- Pairs tied by `expand`: element `i` with positions `i * ratio + j` of the new
tensor. -/
def expandPairs (t : List Nat) (ratio fresh : Nat) : List (Nat × Nat) :=
  t.zipIdx.flatMap (fun xi => (List.range ratio).map (fun j => (xi.1, fresh + (xi.2 * ratio + j))))

/-- One operation; tying tensors of different lengths is refused before anything is
done. -/
def step (limit : Nat) (st : St) : Op → Except Err St
  | .tie t1 t2 => if t1.length = t2.length then unionAll limit (t1.zip t2) st else .error .assertion
  | .expand t ratio fresh => unionAll limit (expandPairs t ratio fresh) st
  | .find x =>
    match root limit st x with
    | .error e => .error e
    | .ok (_, st') => .ok st'

/-- A history of operations; an operation that raises leaves the network analysis
altogether, so the run stops there. -/
def run (limit : Nat) : List Op → St → Except Err St
  | [], st => .ok st
  | o :: rest, st =>
    match step limit st o with
    | .error e => .error e
    | .ok st' => run limit rest st'

/-! ### Ranges of equal groups -/

/-- The loop of `elems_hash_dict`, lines 181-189: `start` is the first position of the
open range, `h` its hash, `prev` the entry before position `e`. -/
def rangeLoop {H : Type} [DecidableEq H] (start : Nat) (h : H) (prev : H × Nat) (e : Nat) :
    List (H × Nat) → List ((Nat × Nat) × H)
  | [] => [((start, e), h)]
  | x :: rest =>
    if x.1 ≠ prev.1 ∨ x.2 < prev.2 then ((start, e), h) :: rangeLoop e x.1 x (e + 1) rest
    else rangeLoop start h x (e + 1) rest

/-- `elems_hash_dict`, lines 176-191, from the pairs (hash of the group, smallest index
in the group); an empty tensor raises `IndexError`. -/
def hashRanges {H : Type} [DecidableEq H] (hs : List (H × Nat)) : Except Err (List ((Nat × Nat) × H)) :=
  match hs with
  | [] => .error .index
  | x :: rest => .ok (rangeLoop 0 x.1 x 1 rest)

end Verif.ChannelFlow
