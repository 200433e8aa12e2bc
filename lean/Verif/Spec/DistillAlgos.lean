import Verif.Model.DistillAlgos
import Mathlib.Tactic.Common

/-! Definitions used in the statements of `Verif/Props/DistillAlgos.lean`. -/

namespace Verif.DistillAlgos
open Verif

/-- The deliveries hold nothing. -/
def Empty (m : Dels) : Prop := ∀ i, (m i).queue = []

/-- A pass left the record an input of a loss asks for. -/
def Made (records : List (String × Datum)) (name : String) : Prop := ∃ d, (name, d) ∈ records

/-- Each recorder holds one record. -/
def Once (r : Run) : Prop := (r.records.map (·.1)).Nodup

/-- The record of a name carries a gradient. -/
def Flows (records : List (String × Datum)) (name : String) : Prop := ∃ d, (name, d) ∈ records ∧ d.grad = true

/-- The names of the reported losses. -/
def reported (calculate : Bool) (s : Run) (cfg : List (String × List Info)) : List String :=
  (if calculate then s.losses.map ("student." ++ ·) else []) ++ cfg.map fun c => "distill." ++ c.1

/-- A network with two recorded layers. -/
def demoRun : Run where
  calls := []
  losses := ["loss_cls"]
  records := [("shallow", ⟨1, true, true⟩), ("deep", ⟨2, true, true⟩)]

/-- The shallow layer learns from the deep one. -/
def demoCfg : List (String × List Info) := [("loss_kl", [⟨true, "shallow"⟩, ⟨false, "deep"⟩]), ("loss_aux", [⟨false, "deep"⟩])]

/-- Deliveries that hold nothing. -/
def fresh : Dels := fun _ => .new 1

end Verif.DistillAlgos
