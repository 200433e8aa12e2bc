import Verif.Py

/-! Model of `mmrazor/structures/subnet/fix_subnet.py` (the `'mutable'` mode of
export and load). Mutables live in a store indexed by identity, because one
mutable can be reached under several names (as a source of derived mutables).
`_dynamic_to_static`, the `'mutator'` mode and file loading are not modelled. -/

namespace Verif.FixSubnet
open Verif

/-- Identity of a mutable object. -/
abbrev Id := Nat

/-- Two families of mutables that differ in how they are fixed: operation choices
(`OneShotMutableOP`) and values (`MutableValue`). -/
inductive Kind where
  | op
  | value
  deriving DecidableEq, Repr

/-- A mutable. `current` is `current_choice`; `chosen` is `_chosen` (used by
operations only). An alias that is `None` or empty is `none`. -/
structure Mut (V : Type) where
  kind : Kind
  aka : Option String
  cands : List V
  current : Option V
  chosen : Option V
  fixed : Bool
  deriving DecidableEq, Repr

/-- Entries of `model.named_modules()` as the two functions distinguish them. -/
inductive Node where
  | other
  | container
  | mutable (i : Id)
  | derived (sources : List Id)
  deriving DecidableEq, Repr

abbrev Store (V : Type) := Id → Mut V

/-- Overwriting one object. -/
def Store.set {V : Type} (st : Store V) (i : Id) (m : Mut V) : Store V :=
  fun j => if j = i then m else st j

/-- `dump_chosen().chosen`: operations assert that a current choice exists
(`one_shot_mutable_module.py` 246-248); values always have one
(`mutable_value.py` 84-95). -/
def dump {V : Type} (m : Mut V) : Except Err V :=
  match m.current with
  | some c => .ok c
  | none => .error .assertion

/-- `fix_chosen`: operations keep the chosen candidate and do not check it nor
touch the current choice (`one_shot_mutable_module.py` 221-239); values check
membership and set the current choice (`mutable_value.py` 70-82). -/
def fixChosen {V : Type} [DecidableEq V] (m : Mut V) (c : V) : Except Err (Mut V) :=
  match m.kind with
  | .op =>
    if m.fixed then .error .attribute
    else .ok { m with cands := m.cands.filter (fun k => decide (k = c)), chosen := some c, fixed := true }
  | .value =>
    if m.fixed then .error .runtime
    else if c ∈ m.cands then .ok { m with current := some c, fixed := true }
    else .error .assertion

/-- What the forward pass uses: a fixed operation its `_chosen`, everything else
the current choice. -/
def effective {V : Type} (m : Mut V) : Option V :=
  match m.kind with
  | .op => if m.fixed then m.chosen else m.current
  | .value => m.current

/-- A subnet description: a dictionary, in insertion order. -/
abbrev Desc (V : Type) := List (String × V)

/-- `d[k] = v`. -/
def Desc.put {V : Type} (d : Desc V) (k : String) (v : V) : Desc V :=
  if d.any (fun p => p.1 == k) then d.map (fun p => if p.1 == k then (k, v) else p) else d ++ [(k, v)]

/-- `d.get(k)`. -/
def Desc.get? {V : Type} (d : Desc V) (k : String) : Option V :=
  (d.find? (fun p => p.1 == k)).map (·.2)

/-- Which objects are visited, with the module name they are visited under
(`fix_subnet.py` lines 99-111 and 187-195): a mutable under its own name, the
sources of a derived mutable under the derived mutable's name, containers and
other modules not at all. -/
def visits : List (String × Node) → List (String × Id)
  | [] => []
  | (n, .mutable i) :: rest => (n, i) :: visits rest
  | (n, .derived ss) :: rest => ss.map (fun i => (n, i)) ++ visits rest
  | (_, _) :: rest => visits rest

/-- `module_dump_chosen`, lines 180-184: the key is the alias if there is one,
else the module name. -/
def exportLoop {V : Type} (st : Store V) : List (String × Id) → Desc V → Except Err (Desc V)
  | [], d => .ok d
  | (n, i) :: rest, d => do
    let c ← dump (st i)
    exportLoop st rest (d.put ((st i).aka.getD n) c)

/-- `_export_subnet_by_mutable`, lines 174-196. -/
def exportSubnet {V : Type} (model : List (String × Node)) (st : Store V) : Except Err (Desc V) :=
  exportLoop st (visits model) []

/-- Python `s.lstrip(chars)`: removes every leading character that occurs in
`chars`. -/
def lstrip (s chars : String) : String :=
  String.ofList (s.toList.dropWhile (fun c => decide (c ∈ chars.toList)))

/-- The name an element without alias is looked up under, lines 80-85. -/
def lookupName (pfx extra name : String) : String :=
  if pfx ≠ "" then lstrip name pfx
  else if extra ≠ "" then extra ++ name
  else name

/-- The description entry of an element, lines 72-92: by alias (`AssertionError`
if missing), else by name (`RuntimeError` if missing). -/
def findEntry {V : Type} (d : Desc V) (pfx extra : String) (aka : Option String) (name : String) :
    Except Err V :=
  match aka with
  | some a => match d.get? a with
    | some c => .ok c
    | none => .error .assertion
  | none => match d.get? (lookupName pfx extra name) with
    | some c => .ok c
    | none => .error .runtime

/-- `load_fix_module`, lines 70-97. The state after an error is kept. -/
def loadOne {V : Type} [DecidableEq V] (d : Desc V) (pfx extra : String) (st : Store V)
    (name : String) (i : Id) : Store V × Option Err :=
  match findEntry d pfx extra (st i).aka name with
  | .error e => (st, some e)
  | .ok c =>
    if (st i).fixed then (st, none)
    else match fixChosen (st i) c with
      | .ok m => (st.set i m, none)
      | .error e => (st, some e)

/-- The loop over the model, lines 99-111; stops at the first exception. -/
def loadLoop {V : Type} [DecidableEq V] (d : Desc V) (pfx extra : String) :
    List (String × Id) → Store V → Store V × Option Err
  | [], st => (st, none)
  | (n, i) :: rest, st =>
    match loadOne d pfx extra st n i with
    | (st', some e) => (st', some e)
    | (st', none) => loadLoop d pfx extra rest st'

/-- `load_fix_subnet` in `'mutable'` mode, lines 31-51. -/
def loadSubnet {V : Type} [DecidableEq V] (model : List (String × Node)) (d : Desc V)
    (pfx extra : String) (st : Store V) : Store V × Option Err :=
  if pfx ≠ "" ∧ extra ≠ "" then (st, some .runtime)
  else loadLoop d pfx extra (visits model) st

end Verif.FixSubnet
