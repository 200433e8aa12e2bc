import Verif.Py

/-! Model of the choice management in `mmrazor/models/mutators/nas_mutator.py` and
`mmrazor/models/mutators/channel_mutator/channel_mutator.py`.

Searchable elements are numbers. What assigning a choice to an element does is a
parameter `store`: it refuses the choice, or gives the value read back afterwards
(channel units round). Maximum, minimum and sampled choices of an element are
parameters too. An operation returns the state it leaves and the error it raised. -/

namespace Verif.Mutator
open Verif

variable {N C : Type} [DecidableEq N]

/-- The current choice of every element. -/
abbrev St (C : Type) := Nat → C

/-- `current_choice = c` of one element. -/
def setOne (store : Nat → C → Except Err C) (s : St C) (e : Nat) (c : C) : St C × Option Err :=
  match store e c with
  | .error err => (s, some err)
  | .ok v => (fun x => if x = e then v else s x, none)

/-- The loop over the elements of a group, nas_mutator.py lines 182-183. -/
def setMembers (store : Nat → C → Except Err C) (c : C) : List Nat → St C → St C × Option Err
  | [], s => (s, none)
  | e :: es, s =>
    match setOne store s e c with
    | (s', none) => setMembers store c es s'
    | (s', some err) => (s', some err)

/-- Dictionary lookup. -/
def get? {A : Type} (d : List (N × A)) (k : N) : Option A := (d.find? (fun p => decide (p.1 = k))).map (·.2)

/-- `set_choices`, nas_mutator.py lines 177-183. -/
def setChoices (store : Nat → C → Except Err C) (choices : List (N × C)) :
    List (N × List Nat) → St C → St C × Option Err
  | [], s => (s, none)
  | (name, es) :: rest, s =>
    match get? choices name with
    | none => (s, some .key)
    | some c =>
      match setMembers store c es s with
      | (s', none) => setChoices store choices rest s'
      | (s', some err) => (s', some err)

/-- `current_choices`, nas_mutator.py lines 225-232: the first element of each group. -/
def currentChoices (s : St C) : List (N × List Nat) → Except Err (List (N × C))
  | [] => .ok []
  | (_, []) :: _ => .error .index
  | (name, e :: _) :: rest =>
    match currentChoices s rest with
    | .error err => .error err
    | .ok l => .ok ((name, s e) :: l)

/-- The argument of `sample_choices`; `other` is any other string. -/
inductive Kind where
  | max | min | random | other

/-- What an element offers: its largest and smallest choice, a random one, and one drawn
by its architecture parameter. -/
structure Offers (C : Type) where
  max : Nat → C
  min : Nat → C
  random : Nat → C
  byParam : Nat → C

/-- One group in `sample_choices`, lines 162-174; `arch` tells which groups have an
architecture parameter. -/
def sampleGroup (o : Offers C) (arch : N → Bool) (kind : Kind) (name : N) : List Nat → Except Err C
  | [] => .error .index
  | e :: _ =>
    if arch name then .ok (o.byParam e)
    else
      match kind with
      | .max => .ok (o.max e)
      | .min => .ok (o.min e)
      | .random => .ok (o.random e)
      | .other => .error .notImplemented

/-- `sample_choices`, lines 158-175; `max_choices` and `min_choices` (lines 185-223) are
this function with kinds `max` and `min`. -/
def sampleChoices (o : Offers C) (arch : N → Bool) (kind : Kind) : List (N × List Nat) → Except Err (List (N × C))
  | [] => .ok []
  | (name, es) :: rest =>
    match sampleGroup o arch kind name es with
    | .error err => .error err
    | .ok c =>
      match sampleChoices o arch kind rest with
      | .error err => .error err
      | .ok l => .ok ((name, c) :: l)

/-- The loop of `set_max_choices` and `set_min_choices`, lines 234-260, without
architecture parameters (with them the dictionary is drawn anew in every round): the
whole dictionary is computed for each group. -/
def setExtremes (store : Nat → C → Except Err C) (o : Offers C) (kind : Kind) (all : List (N × List Nat)) :
    List (N × List Nat) → St C → St C × Option Err
  | [], s => (s, none)
  | (name, es) :: rest, s =>
    match sampleChoices o (fun _ => false) kind all with
    | .error err => (s, some err)
    | .ok d =>
      match get? d name with
      | none => (s, some .key)
      | some c =>
        match setMembers store c es s with
        | (s', none) => setExtremes store o kind all rest s'
        | (s', some err) => (s', some err)

/-! ### Channel mutator -/

/-- A unit: its name, its number and `is_mutable`. -/
structure U (N : Type) where
  name : N
  id : Nat
  isMutable : Bool

/-- `set_choices`, channel_mutator.py lines 216-227. -/
def setUnits (store : Nat → C → Except Err C) (units : List (U N)) : List (N × C) → St C → St C × Option Err
  | [], s => (s, none)
  | (name, c) :: rest, s =>
    match units.find? (fun u => decide (u.name = name)) with
    | none => (s, some .key)
    | some u =>
      match setOne store s u.id c with
      | (s', none) => setUnits store units rest s'
      | (s', some err) => (s', some err)

/-- `current_choices`, channel_mutator.py lines 229-235 with `choice_template` 237-250:
one entry per mutable unit. -/
def currentUnits (units : List (U N)) (s : St C) : List (N × C) :=
  (units.filter (fun u => u.isMutable)).map (fun u => (u.name, s u.id))

/-- `sample_choices`, channel_mutator.py lines 201-214. -/
def sampleUnits (units : List (U N)) (o : Offers C) (kind : Kind) : Except Err (List (N × C)) :=
  match kind with
  | .random => .ok ((units.filter (fun u => u.isMutable)).map (fun u => (u.name, o.random u.id)))
  | _ => .error .assertion

end Verif.Mutator
