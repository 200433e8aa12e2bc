import Verif.Model.Recorder
import Mathlib.Tactic

/-! Definitions used in the statements of `Verif/Props/Recorder.lean`. -/

namespace Verif.Recorder
open Verif

variable {V : Type}

/-- The values a source produced, in order. -/
def produced (k : Kind) (src : Nat) (evs : List (Event V)) : List V :=
  evs.filterMap fun e => match e with
    | .call s v => if k ≠ .module ∧ s = src then v else none
    | .forward m v => if k = .module ∧ m = src then v else none

/-- The recorders of a manager that patch a given name. -/
def patchers (w : World V) (ids : List Nat) (s : Nat) : List Nat :=
  ids.filter fun i => (w.rcd i).kind ≠ .module ∧ (w.rcd i).src = s

/-- Nothing is patched; every method recorder remembers the original; every module
recorder was initialised once. -/
structure Ready (w : World V) (ids : List Nat) : Prop where
  nodup : ids.Nodup
  clean : ∀ s, w.slot s = .orig s
  method : ∀ i ∈ ids, (w.rcd i).kind = .method → (w.rcd i).saved = some (.orig (w.rcd i).src)
  hooked : ∀ i ∈ ids, (w.rcd i).kind = .module → ∀ m, (w.hooks m).count i = if m = (w.rcd i).src then 1 else 0
  idle : ∀ i ∈ ids, (w.rcd i).recording = false

/-- What one event adds to the buffer of recorder `j` (entry `g`, module hook on or off). -/
def heard (sl : Nat → Fn) (hk : Nat → List Nat) (j g : Nat) (on : Bool) : Event V → List V
  | .call s (some v) => List.replicate ((sl s).effects.count (j, g)) v
  | .forward m (some v) => if on then List.replicate ((hk m).count j) v else []
  | _ => []

/-- Two recorders of the same function. -/
def twoFunctions : World Nat :=
  ((⟨.orig, fun _ => ⟨.module, 0, none, 0, [], false⟩, fun _ => []⟩ : World Nat).makeFunction 0 7).makeFunction 1 7

/-- Two recorders of the same method. -/
def twoMethods : World Nat :=
  ((⟨.orig, fun _ => ⟨.module, 0, none, 0, [], false⟩, fun _ => []⟩ : World Nat).makeMethod 0 7).makeMethod 1 7

/-- One module recorder, initialised twice. -/
def twiceInitialised : World Nat :=
  (((⟨.orig, fun _ => ⟨.module, 0, none, 0, [], false⟩, fun _ => []⟩ : World Nat).makeModule 0 7).initialize 0).initialize 0

/-- One recorder of each kind. -/
def three : World Nat :=
  ((((⟨.orig, fun _ => ⟨.module, 0, none, 0, [], false⟩, fun _ => []⟩ : World Nat).makeFunction 0 7).makeMethod 1 8).makeModule 2 7).initialize 2

end Verif.Recorder
