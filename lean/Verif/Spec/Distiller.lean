import Verif.Model.Distiller
import Mathlib.Tactic

/-! Definitions used in the statements of `Verif/Props/Distiller.lean`. -/

namespace Verif.Distiller
open Verif

variable {T : Type}

/-- The record info names a recorder of the right side, and a connector that exists. -/
def Named (c : Cfg T) (i : Info) : Prop :=
  ∃ r b, i.recorder = some r ∧ i.fromStudent = some (.bool b) ∧ r ∈ (if b then c.student else c.teacher) ∧
    ∀ n, i.connector = some n → ∃ f, get? c.connectors n = some f

/-- What is checked: the loss exists, its arguments exist, and arguments without a default value
are well described. -/
def Accepted (c : Cfg T) (ms : List (Name × List (Name × Info))) : Prop :=
  ∀ nm ∈ ms, ∃ l, get? c.losses nm.1 = some l ∧
    ∀ ki ∈ nm.2, ∃ d, get? l.params ki.1 = some d ∧ (d = false → Named c ki.2)

/-- Every argument without a default value is given. -/
def Complete (c : Cfg T) (ms : List (Name × List (Name × Info))) : Prop :=
  ∀ nm ∈ ms, ∀ l, get? c.losses nm.1 = some l → ∀ p ∈ l.params, p.2 = false → p.1 ∈ nm.2.map (·.1)

/-- `d` is the data described by the record info: the `k`-th record of the named recorder, or its
`j`-th part, sent through the connector, of which a part may be selected. -/
def Located (c : Cfg T) (w : World T) (i : Info) (d : Data T) : Prop :=
  ∃ (r : Name) (b : Bool) (k : Nat) (x y z : Data T), i.recorder = some r ∧ i.fromStudent = some (.bool b) ∧ i.recordIdx = k ∧
    (if b then w.student r else w.teacher r)[k]? = some x ∧
    (match i.dataIdx with
      | none => y = x
      | some j => ∃ (l : List (Data T)) (j' : Nat), x = .seq l ∧ j = j' ∧ l[j']? = some y) ∧
    (match i.connector with
      | none => z = y
      | some n => ∃ f, get? c.connectors n = some f ∧ z = f y) ∧
    (match i.connectorIdx with
      | none => d = z
      | some j => ∃ (l : List (Data T)) (j' : Nat), z = .seq l ∧ j = j' ∧ l[j']? = some d)

/-- Two losses: an L2 loss with two required arguments and one with a default value. -/
def l2 : Loss ℚ := ⟨[("s".toList, false), ("t".toList, false), ("weight".toList, true)], fun _ => 1⟩

/-- A distiller with one recorder on each side and no connectors. -/
def demo (ms : List (Name × List (Name × Info))) : Cfg ℚ := ⟨["feat".toList], ["feat".toList], [], [("loss_neck".toList, l2)], ms⟩

/-- The student's or the teacher's feature. -/
def feat (student : Bool) : Info := { recorder := some "feat".toList, fromStudent := some (.bool student) }

open Classical in
/-- The sum of the values whose name contains the word `loss`. -/
noncomputable def lossSum (l : List (Name × ℚ)) : ℚ :=
  (l.map fun x => if ∃ a b : Name, x.1 = a ++ ['l', 'o', 's', 's'] ++ b then x.2 else 0).sum

end Verif.Distiller
