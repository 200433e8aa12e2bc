import Verif.Model.Groups
import Mathlib.Tactic

/-! Definitions used in the statements of `Verif/Props/Groups.lean`. -/

namespace Verif.Groups
open Verif

variable {K : Type} [DecidableEq K]

/-- Module names are distinct and every module stands for at most one element. -/
def Simple (net : Net K) : Prop := (net.map (·.1)).Nodup ∧ ∀ e ∈ net, e.2.length ≤ 1

/-- The names of the modules with an element of alias `a`, in the order of the modules. -/
def namesWith (net : Net K) (a : K) : List K := ((aliasPairs net).filter (fun p => decide (p.1 = a))).map (·.2)

/-- Some element has this alias. -/
def IsAlias (net : Net K) (a : K) : Prop := ∃ e ∈ net, ∃ m ∈ e.2, m.aka = some a

/-- The module names an item of a custom group stands for: those of the alias, or the
item itself. -/
def denoteNames (net : Net K) (item : K) : List K :=
  if namesWith net item = [] then [item] else namesWith net item

/-- `m` is the element of the module `n`. -/
def Elem (net : Net K) (n : K) (m : Mut K) : Prop := mutOf net n = some m

/-- Groups are numbered in the order they were made. -/
def Numbered {K : Type} (gs : List ((String × Nat) × List (Mut K))) : Prop := ∀ (i : Nat) g, gs[i]? = some g → g.1.2 = i

/-- The toy model of the class documentation: three elements, aliases a1, a1, a2. -/
def toy : Net String :=
  [("op1", [⟨1, some "a1", "m"⟩]), ("op2", [⟨2, some "a1", "m"⟩]), ("op3", [⟨3, some "a2", "m"⟩])]

/-- The groups as identities. -/
def ids {K : Type} (r : Except Err (List ((String × Nat) × List (Mut K)))) : Option (List (List Nat)) :=
  match r with
  | .ok gs => some (gs.map (fun g => g.2.map Mut.id))
  | .error _ => none

/-- The error, if any. -/
def errorOf {A : Type} (r : Except Err A) : Option Err :=
  match r with
  | .ok _ => none
  | .error e => some e

end Verif.Groups
