import Verif.Model.CustomTracer
import Mathlib.Data.List.Nodup
import Mathlib.Data.List.Forall2
import Mathlib.Tactic.Tauto

/-! Definitions used in the statements of `Verif/Props/CustomTracer.lean`. -/

namespace Verif.CustomTracer
open Verif

/-- A source string (given by its parts) names method `name` of class `c`: a module path of at least
one part, a class in it, a method of the class. -/
def Names (w : World) (source : List String) (m : Cls × String) : Prop :=
  ∃ path cls f, source = path ++ [cls, m.2] ∧ path ≠ [] ∧ w.modules path = some f ∧
    f cls = some (.cls m.1) ∧ ∃ k ∈ w.mro m.1, m.2 ∈ w.own k

/-- Modules of class `c` take method `name` from class `o` or from one `o` inherits it from: no
class before `o` in the resolution order defines it. -/
def Inherits (w : World) (c : Cls) (name : String) (o : Cls) : Prop :=
  ∃ l r, w.mro c = l ++ o :: r ∧ o ∉ l ∧ ∀ k ∈ l, name ∉ w.own k

/-- The call of a method is to be skipped. -/
def Skipped (w : World) (ms : List (Cls × String)) (c : Cls) (name : String) : Prop :=
  ∃ o, (o, name) ∈ ms ∧ Inherits w c name o

/-- The nodes of code traced with the given methods skipped: a skipped call is one node, all other
calls are entered. -/
inductive Traced (w : World) (ms : List (Cls × String)) : List Stmt → List Node → Prop
  | nil : Traced w ms [] []
  | op {n l ns} : Traced w ms l ns → Traced w ms (.op n :: l) (.op n :: ns)
  | skip {c name body l ns} : Skipped w ms c name → Traced w ms l ns →
      Traced w ms (.call c name body :: l) (.method c name :: ns)
  | enter {c name body bs l ns} : ¬ Skipped w ms c name → Traced w ms body bs → Traced w ms l ns →
      Traced w ms (.call c name body :: l) (bs ++ ns)

/-- The registry before any tracer is made. -/
def emptyReg : Reg := ⟨[], none, 0⟩

/-- A world with two heads and a subclass of the first one. -/
def exWorld : World where
  modules := fun p => if p = ["m"] then some (fun n =>
    if n = "A" then some (.cls 0) else if n = "B" then some (.cls 1) else none) else none
  mro := fun c => if c = 2 then [2, 0] else [c]
  own := fun c => if c = 2 then ["forward"] else ["loss", "predict"]

/-- The graph of a classifier: backbone, head, loss. -/
def exNodes : List GNode := [.other, .callModule "backbone", .getAttr "head" true,
  .callMethod "_get_loss" [2, 1, 0]]

end Verif.CustomTracer
