import Verif.Py

/-! Model of `EpochMultiLoader` and `IterMultiLoader`
(`mmrazor/engine/runner/darts_loop.py`, lines 119-181) and of the loops over them (lines 55-64
and 97-116). A loader is the list of its batches, an iterator the list of the batches still to
come. -/

namespace Verif.Loaders
open Verif

variable {β : Type}

/-- `tuple([next(loader) for loader in self.iter_loaders])`: the batches (`none`: StopIteration)
and the iterators afterwards; those before the exhausted one have advanced. -/
def nextAll : List (List β) → Option (List β) × List (List β)
  | [] => (some [], [])
  | [] :: its => (none, [] :: its)
  | (x :: xs) :: its => ((nextAll its).1.map (x :: ·), xs :: (nextAll its).2)

/-- The loop over an `EpochMultiLoader`, lines 59-60 and 132-139, stopped after at most `fuel`
steps. -/
def epoch : Nat → List (List β) → List (List β)
  | 0, _ => []
  | fuel + 1, its =>
    match (nextAll its).1 with
    | some d => d :: epoch fuel (nextAll its).2
    | none => []

/-- `__len__`, lines 141-143 (and 179-181): `min` of nothing is an error. -/
def len : List (List β) → Except Err Nat
  | [] => .error .value
  | l :: ls => .ok (ls.foldl (fun m k => min m k.length) l.length)

/-- `IterMultiLoader`: its iterators and epoch counter. The assignment in line 174 goes to a
different attribute than the one that is read, so restarted iterators are never used. -/
structure It (β : Type) where
  its : List (List β)
  ep : Nat
deriving DecidableEq, Repr

def It.init (loaders : List (List β)) : It β := ⟨loaders, 0⟩

/-- `__next__`, lines 164-177. -/
def It.next (s : It β) : Option (List β) × It β :=
  match (nextAll s.its).1 with
  | some d => (some d, ⟨(nextAll s.its).2, s.ep⟩)
  | none => ((nextAll (nextAll s.its).2).1, ⟨(nextAll (nextAll s.its).2).2, s.ep + 1⟩)

/-- The iteration based loop, lines 103-107: the batches of the first `n` iterations and
whether it was cut short by a `StopIteration`. -/
def run : Nat → It β → List (List β) × Bool
  | 0, _ => ([], false)
  | n + 1, s =>
    match s.next.1 with
    | some d => (d :: (run n s.next.2).1, (run n s.next.2).2)
    | none => ([], true)

end Verif.Loaders
