import Verif.Py

/-! Model of `mmrazor/models/mutators/group_mixin.py`.

The supernet is the list of its named modules, each with the searchable elements it
stands for: itself, or the supported ones among its `source_mutables` (lines 78-83).
`named_modules` gives distinct names. A group name is the prefix and a running
number (the code joins them by an underscore; no decimal number contains one, so
different pairs give different names). -/

namespace Verif.Groups
open Verif

variable {K : Type} [DecidableEq K]

/-- A searchable element: its identity, `alias` and `mutable_prefix`. -/
structure Mut (K : Type) where
  id : Nat
  aka : Option K
  pre : String
  deriving DecidableEq

/-- The named modules, in the order of `named_modules`. -/
abbrev Net (K : Type) := List (K × List (Mut K))

/-- Look up in a dictionary. -/
def get? {A : Type} (d : List (K × A)) (k : K) : Option A := (d.find? (fun p => decide (p.1 = k))).map (·.2)

/-- `_build_name_mutable_mapping`, lines 73-87: the last source of a module wins. -/
def mutOf (net : Net K) (n : K) : Option (Mut K) := (get? net n).bind (fun ms => ms.getLast?)

/-- `_append`, lines 94-98. -/
def addAlias : List (K × List K) → K × K → List (K × List K)
  | [], (a, n) => [(a, [n])]
  | (k, ns) :: d, (a, n) => if k = a then (k, ns ++ [n]) :: d else (k, ns) :: addAlias d (a, n)

/-- Lines 100-109: an alias and the name of the module, for each element with an alias. -/
def aliasPairs (net : Net K) : List (K × K) :=
  net.flatMap (fun e => e.2.filterMap (fun m => m.aka.map (fun a => (a, e.1))))

/-- `_build_alias_names_mapping`, lines 89-111. -/
def aliasNames (net : Net K) : List (K × List K) := (aliasPairs net).foldl addAlias []

/-- `_check_valid_groups`, lines 226-261. -/
def checkValid (net : Net K) (custom : List (List K)) : Except Err Unit :=
  let al := aliasNames net
  if custom.flatten.all (fun k => (get? al k).isSome || (mutOf net k).isSome) then
    if custom.flatten.all (fun k =>
        match get? al k with
        | none => true
        | some ns => ns.all (fun n => decide (n ∉ custom.flatten))) then .ok ()
    else .error .assertion
  else .error .assertion

/-- The dictionary being built, `grouped_mutable_names` and `grouped_alias`. The number
of groups is `current_group_nums`. -/
structure B (K : Type) where
  groups : List ((String × Nat) × List (Mut K))
  names : List K
  aliases : List K

/-- `[name2mutable[n] for n in mutable_names]`, lines 155-156. -/
def mutsOf (net : Net K) : List K → Except Err (List (Mut K))
  | [] => .ok []
  | n :: ns =>
    match mutOf net n with
    | none => .error .key
    | some m =>
      match mutsOf net ns with
      | .error e => .error e
      | .ok ms => .ok (m :: ms)

/-- The loop over the items of a custom group, lines 149-161: members, grouped names
and grouped aliases so far. -/
def customItems (net : Net K) : List K → List (Mut K) × List K × List K → Except Err (List (Mut K) × List K × List K)
  | [], r => .ok r
  | item :: rest, (ms, names, als) =>
    match get? (aliasNames net) item with
    | some ns =>
      match mutsOf net ns with
      | .error e => .error e
      | .ok ms' => customItems net rest (ms ++ ms', names ++ ns, als ++ [item])
    | none =>
      match mutOf net item with
      | none => .error .key
      | some m => customItems net rest (ms ++ [m], names ++ [item], als)

/-- The name `item` after the loop, used in line 164: the last item of this group, or of
an earlier one when this group is empty. -/
def lastItem (g : List K) (last : Option K) : Option K :=
  match g.getLast? with
  | some x => some x
  | none => last

/-- Custom groups, lines 147-167. -/
def customGroups (net : Net K) : List (List K) → Option K → B K → Except Err (B K)
  | [], _, b => .ok b
  | g :: gs, last, b =>
    match customItems net g ([], b.names, b.aliases) with
    | .error e => .error e
    | .ok (ms, names, als) =>
      match lastItem g last with
      | none => .error .name
      | some it =>
        match mutOf net it with
        | none => .error .key
        | some m =>
          customGroups net gs (some it) ⟨b.groups ++ [((m.pre, b.groups.length), ms)], names, als⟩

/-- Names of one alias not grouped yet, lines 183-187: members and grouped names. -/
def aliasMembers (net : Net K) : List K → List (Mut K) × List K → Except Err (List (Mut K) × List K)
  | [], r => .ok r
  | n :: ns, (ms, names) =>
    if n ∈ names then aliasMembers net ns (ms, names)
    else
      match mutOf net n with
      | none => .error .key
      | some m => aliasMembers net ns (ms ++ [m], names ++ [n])

/-- Groups by alias, lines 169-188. -/
def aliasGroups (net : Net K) : List (K × List K) → B K → Except Err (B K)
  | [], b => .ok b
  | (a, ns) :: rest, b =>
    if a ∈ b.aliases then aliasGroups net rest b
    else if ns.all (fun n => decide (n ∈ b.names)) then aliasGroups net rest b
    else
      match (ns.head?).bind (mutOf net) with
      | none => .error .key
      | some m0 =>
        match aliasMembers net ns ([], b.names) with
        | .error e => .error e
        | .ok (ms, names) =>
          aliasGroups net rest ⟨b.groups ++ [((m0.pre, b.groups.length), ms)], names, b.aliases⟩

/-- Lines 195-199 and 202-208: one group for each element of a module. -/
def addSingles : List (Mut K) → B K → B K
  | [], b => b
  | m :: ms, b => addSingles ms ⟨b.groups ++ [((m.pre, b.groups.length), [m])], b.names, b.aliases⟩

/-- The remaining modules, lines 190-208. -/
def singles : Net K → B K → B K
  | [], b => b
  | (n, ms) :: rest, b => if n ∈ b.names then singles rest b else singles rest (addSingles ms b)

/-- Lines 210-224: the check for duplicates. -/
def finish (b : B K) : Except Err (List ((String × Nat) × List (Mut K))) :=
  if b.names.Nodup then .ok b.groups else .error .assertion

/-- The part of `build_search_groups` after the check of the keys. -/
def buildRest (net : Net K) (custom : List (List K)) : Except Err (List ((String × Nat) × List (Mut K))) :=
  match customGroups net custom none ⟨[], [], []⟩ with
  | .error e => .error e
  | .ok b1 =>
    match aliasGroups net (aliasNames net) b1 with
    | .error e => .error e
    | .ok b2 => finish (singles net b2)

/-- `build_search_groups`, lines 113-224. -/
def build (net : Net K) (custom : List (List K)) : Except Err (List ((String × Nat) × List (Mut K))) :=
  if custom = [] then buildRest net custom
  else
    match checkValid net custom with
    | .error e => .error e
    | .ok _ => buildRest net custom

end Verif.Groups
