import Verif.Model.FixSubnet

/-! Definitions used in the statements of `Verif/Props/FixSubnet.lean`. -/

namespace Verif.FixSubnet
open Verif

variable {V : Type} [DecidableEq V]

/-! ### Specification -/

/-- The key under which an object reached as `(name, i)` is described: its alias,
else the module name. -/
def keyOf (st : Store V) (v : String × Id) : String := (st v.2).aka.getD v.1

/-- Objects that are described under the same key have the same choice. -/
def KeysConsistent (st : Store V) (model : List (String × Node)) : Prop :=
  ∀ v ∈ visits model, ∀ w ∈ visits model, keyOf st v = keyOf st w → (st v.2).current = (st w.2).current

/-- `st'` holds a fresh copy of the supernet in `st`: the same mutables with the
same candidates, none of them fixed. -/
def Fresh (st st' : Store V) : Prop :=
  ∀ i, (st' i).kind = (st i).kind ∧ (st' i).aka = (st i).aka ∧ (st' i).cands = (st i).cands ∧
    (st' i).fixed = false

/-- `s` without the whole prefix `p` (unchanged if it does not start with it). -/
def removePrefix (s p : String) : String :=
  if p.toList <+: s.toList then String.ofList (s.toList.drop p.toList.length) else s

/-- A supernet with an operation, an aliased value, and a derived mutable with one
source that is also reached directly. -/
def exModel : List (String × Node) :=
  [("", .other), ("op", .mutable 0), ("w", .mutable 1), ("c", .container), ("d", .derived [1, 2])]

/-- Its state at export time. -/
def exStore : Store Nat
  | 0 => ⟨.op, none, [1, 2, 3], some 2, none, false⟩
  | 1 => ⟨.value, some "width", [8, 16], some 16, none, false⟩
  | _ => ⟨.value, none, [4, 5], some 5, none, false⟩

end Verif.FixSubnet
