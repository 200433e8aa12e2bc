import Verif.Py
import Verif.Sort
import Mathlib.Data.List.Dedup

/-! Model of how the units of channels are found in a model whose layers already carry choices of
channels: `init_from_predefined_model` in
`mmrazor/models/mutables/mutable_channel/units/mutable_channel_unit.py` with the constructor of
`one_shot_mutable_channel_unit.py`, `mmrazor/models/mutators/nas_mutator.py`, and the constructor of
`mmrazor/models/mutables/mutable_channel/oneshot_mutable_channel.py`. Choices are numbers of channels
(`choice_mode='number'`). -/

namespace Verif.Predefined
open Verif

/-- A choice of channels: how many there are, which numbers may be chosen, and how many are chosen
now. -/
structure Choice where
  num : Nat
  cands : List Nat
  cur : Nat
deriving DecidableEq, Repr

/-- `candidate_choices.sort()`. -/
def ascending (l : List Nat) : List Nat := sortBy (fun a b => decide (a ≤ b)) l

/-- `OneShotMutableChannel.__init__`, oneshot_mutable_channel.py lines 20-29: `dflt` is the list that
stands for the missing argument. There is only one such list, it is sorted in place and filled when
it is empty; the new choice keeps it. All channels are chosen at first. -/
def construct (dflt : List Nat) (num : Nat) : Option (List Nat) → Choice × List Nat
  | none =>
    let l := ascending dflt
    let l := if l = [] then [num] else l
    (⟨num, l, num⟩, l)
  | some cs =>
    let l := ascending cs
    (⟨num, if l = [] then [num] else l, num⟩, dflt)

/-- Choices constructed one after the other. -/
def constructAll (dflt : List Nat) : List (Nat × Option (List Nat)) → List Choice
  | [] => []
  | (n, arg) :: rest => (construct dflt n arg).1 :: constructAll (construct dflt n arg).2 rest

/-- What is registered for a range of channels: a choice itself, or something derived from choices of
channels (the list, without the other things it depends on) that takes `ratio` times as many. -/
inductive Use
  | direct (m : Nat)
  | derived (chans : List Nat) (ratio : Nat)
deriving DecidableEq, Repr

/-- A registered range of a layer. -/
structure Entry where
  start : Nat
  stop : Nat
  use : Use
deriving DecidableEq, Repr

/-- A dynamic layer: what is registered for its input and output channels; `none`: no container. -/
structure Layer where
  name : String
  ins : Option (List Entry)
  outs : Option (List Entry)
deriving DecidableEq, Repr

/-- `Channel`, channel_unit.py lines 27-47, in the list of its side. -/
structure Chan where
  layer : String
  start : Nat
  stop : Nat
deriving DecidableEq, Repr

/-- A unit: the choice it stands for, its number of channels and candidates, and what is related to
it. -/
structure CUnit where
  ch : Nat
  num : Nat
  cands : List Nat
  ins : List Chan
  outs : List Chan
deriving DecidableEq, Repr

/-- The choice that a registered range depends on, lines 72-86: exactly one. -/
def source : Use → Except Err Nat
  | .direct m => .ok m
  | .derived chans _ => match chans.dedup with
    | [m] => .ok m
    | _ => .error .assertion

/-- `_prepare_candidate_choices`, one_shot_mutable_channel_unit.py lines 120-139, with the default
divisor 1 and smallest value 1. -/
def prepared (cands : List Nat) : List Nat := ascending (cands.map (max 1))

/-- `init_from_mutable_channel` with the constructor, one_shot_mutable_channel_unit.py lines 40-63:
the new unit and the choice, which gets the candidates of the unit. -/
def unitOf (m : Nat) (c : Choice) : CUnit × Choice :=
  let cands := prepared (if c.cands = [] then [c.num] else c.cands)
  (⟨m, c.num, cands, [], []⟩, { c with cands := cands })

/-- The choices of the model. -/
abbrev Store := Nat → Choice

/-- `store[m] = c`. -/
def put (s : Store) (m : Nat) (c : Choice) : Store := fun k => if k = m then c else s k

/-- `add_output_related` and `add_input_related`, channel_unit.py lines 226-236. -/
def addTo (l : List Chan) (c : Chan) : List Chan := if c ∈ l then l else l ++ [c]

/-- The channel joins the unit, lines 92-105. -/
def join (out : Bool) (c : Chan) (u : CUnit) : CUnit :=
  if out then { u with outs := addTo u.outs c } else { u with ins := addTo u.ins c }

/-- The units so far, in the order of the dictionary, and the choices. -/
abbrev St := List CUnit × Store

/-- One registered range, lines 71-105. -/
def addEntry (layer : String) (out : Bool) (e : Entry) (st : St) : Except Err St :=
  match source e.use with
  | .error err => .error err
  | .ok m =>
    let st := if st.1.any (fun u => u.ch == m) then st
      else (st.1 ++ [(unitOf m (st.2 m)).1], put st.2 m (unitOf m (st.2 m)).2)
    .ok (st.1.map (fun u => if u.ch = m then join out ⟨layer, e.start, e.stop⟩ u else u), st.2)

/-- `process_container`, lines 65-105. -/
def addEntries (layer : String) (out : Bool) : List Entry → St → Except Err St
  | [], st => .ok st
  | e :: es, st => match addEntry layer out e st with
    | .error err => .error err
    | .ok st => addEntries layer out es st

/-- A container that is not there is `None`, which has no `mutable_channels`. -/
def addSide (layer : String) (out : Bool) : Option (List Entry) → St → Except Err St
  | none, _ => .error .attribute
  | some es, st => addEntries layer out es st

/-- One dynamic layer, lines 109-118: its inputs, then its outputs. -/
def addLayer (l : Layer) (st : St) : Except Err St :=
  match addSide l.name false l.ins st with
  | .error err => .error err
  | .ok st => addSide l.name true l.outs st

/-- The loop over the modules, lines 106-118. -/
def addLayers : List Layer → St → Except Err St
  | [], st => .ok st
  | l :: ls, st => match addLayer l st with
    | .error err => .error err
    | .ok st => addLayers ls st

/-- `init_from_predefined_model`, lines 60-120. -/
def units (ls : List Layer) (s : Store) : Except Err St := addLayers ls ([], s)

/-- `current_choice` setter of the unit, one_shot_mutable_channel_unit.py lines 94-101, with the one
of the choice, oneshot_mutable_channel.py lines 36-42: the mask has no more than its channels. -/
def setUnit (u : CUnit) (c : Nat) (s : Store) : Except Err Store :=
  if c ∈ u.cands then
    if max 1 c ∈ (s u.ch).cands then .ok (put s u.ch { s u.ch with cur := min (max 1 c) (s u.ch).num })
    else .error .assertion
  else .error .assertion

/-- `max_choice`, lines 115-118: the last candidate. -/
def top (u : CUnit) : Nat := u.cands.getLastD 0

/-- The loop in `_prepare_from_predefined_model`, nas_mutator.py lines 138-140. -/
def setTops : List CUnit → Store → Except Err Store
  | [], s => .ok s
  | u :: us, s => match setUnit u (top u) s with
    | .error err => .error err
    | .ok s => setTops us s

/-- `is_mutable`, mutable_channel_unit.py lines 129-153, when all related layers are dynamic. -/
def prunable (u : CUnit) : Bool := !u.outs.isEmpty && !u.ins.isEmpty

/-- `has_channel`, nas_mutator.py lines 83-90. -/
def hasChannel (ls : List Layer) : Bool := ls.any fun l => l.outs.isSome || l.ins.isSome

/-- The channel part of `prepare_from_supernet`, nas_mutator.py lines 47-58: the units to search, the
number of each is that of its group; and the choices. -/
def prepare (ls : List Layer) (s : Store) : Except Err (List (Nat × CUnit) × Store) :=
  if hasChannel ls then
    match units ls s with
    | .error err => .error err
    | .ok (us, s) => match setTops us s with
      | .error err => .error err
      | .ok s => .ok (((us.filter prunable).zipIdx.map fun p => (p.2, p.1)), s)
  else .ok ([], s)

/-- The name of a unit, channel_unit.py lines 180-190, as the layer, the range and the number of
channels: the first output, otherwise the first input. -/
def unitName (u : CUnit) : Option Chan × Nat := ((u.outs ++ u.ins).head?, u.num)

/-- How many channels of a registered range are in use. -/
def width (s : Store) : Use → Nat
  | .direct m => (s m).cur
  | .derived chans ratio => (s (chans.headD 0)).cur * ratio

end Verif.Predefined
