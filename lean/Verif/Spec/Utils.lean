import Verif.Model.Utils
import Mathlib.Tactic.Common
import Mathlib.Tactic.Linarith
import Mathlib.Tactic.FieldSimp
import Mathlib.Data.List.GetD
import Mathlib.Algebra.BigOperators.Group.Finset.Basic

/-! Definitions used in the statements of `Verif/Props/Utils.lean`. -/

namespace Verif.Utils
open Verif

/-- The sum of the values of a channel of height `h` and width `w`. -/
def strength (h w : Nat) (p : Plane) : ℚ := ∑ i ∈ Finset.range h, ∑ j ∈ Finset.range w, p i j

/-- `panels` are the `k` channels with the largest sums, largest first, each once, with
their numbers. -/
structure Largest (f : Feat) (k : Nat) (panels : List (Nat × Plane)) : Prop where
  count : panels.length = k
  channel : ∀ p ∈ panels, f.chans[p.1]? = some p.2
  once : (panels.map (·.1)).Nodup
  descending : panels.Pairwise fun a b => strength f.h f.w b.2 ≤ strength f.h f.w a.2
  largest : ∀ p ∈ panels, ∀ i q, f.chans[i]? = some q → i ∉ panels.map (·.1) → strength f.h f.w q ≤ strength f.h f.w p.2

/-- The planes and size of what is drawn. -/
def Drawn.size : Drawn → Nat × Nat
  | .heat h w _ => (h, w)
  | .grid _ _ h w _ => (h, w)

/-- An operation on the scopes of a process: someone gets an instance, or the modules
are registered. -/
inductive ScopeOp where
  | get (name scope : String)
  | register (init : Bool) (now : String)

/-- A history of the scopes. -/
def scopesAfter (s : Scopes) : List ScopeOp → Scopes
  | [] => s
  | .get n c :: os => scopesAfter (getInstance s n c) os
  | .register b t :: os => scopesAfter (registerAll b t s) os

end Verif.Utils
