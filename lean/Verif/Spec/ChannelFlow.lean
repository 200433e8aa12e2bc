import Verif.Model.ChannelFlow
import Mathlib.Logic.Relation
import Mathlib.Tactic

/-! Definitions used in the statements of `Verif/Props/ChannelFlow.lean`. -/

namespace Verif.ChannelFlow
open Verif

/-- `r` is reached from `x` by following parents until there is none. -/
inductive RootOf (st : St) : Nat → Nat → Prop where
  | here (x) : st.parent x = none → RootOf st x x
  | up (x p r) : st.parent x = some p → RootOf st p r → RootOf st x r

/-- Two elements are in the same group: they have a common root. -/
def Same (st : St) (x y : Nat) : Prop := ∃ r, RootOf st x r ∧ RootOf st y r

/-- The ties an operation asks for. -/
def Tied : Op → Nat → Nat → Prop
  | .tie t1 t2, a, b => ∃ i : Nat, t1[i]? = some a ∧ t2[i]? = some b
  | .expand t ratio fresh, a, b =>
      ∃ i j : Nat, t[i]? = some a ∧ j < ratio ∧ b = fresh + (i * ratio + j)
  | .find _, _, _ => False

/-- Every tie asked for in a history. -/
def TiedIn (ops : List Op) (a b : Nat) : Prop := ∃ o ∈ ops, Tied o a b

/-- How many pairs of elements an operation ties. -/
def pairs : Op → Nat
  | .tie t1 _ => t1.length
  | .expand t ratio _ => t.length * ratio
  | .find _ => 0

/-- Only tensors of equal lengths are tied. -/
def Fits : Op → Prop
  | .tie t1 t2 => t1.length = t2.length
  | _ => True

/-- Consistency of the forest, with a depth for every element. -/
structure Inv (st : St) (d : Nat → Nat) (B : Nat) : Prop where
  zero : ∀ x, st.parent x = none → d x = 0
  lt : ∀ x p, st.parent x = some p → d p < d x
  mem : ∀ x y, y ∈ st.subs x ↔ st.parent y = some x
  le : ∀ x, d x ≤ B

/-- The groups are the classes of the relation generated by `R`. -/
def Groups (st : St) (R : Nat → Nat → Prop) : Prop := ∀ x y, Same st x y ↔ Relation.EqvGen R x y

/-- Consecutive ranges covering `[a, b)`, none of them empty. -/
inductive Tiles {H : Type} : Nat → Nat → List ((Nat × Nat) × H) → Prop where
  | last (a b : Nat) (h : H) : a < b → Tiles a b [((a, b), h)]
  | cons (a m b : Nat) (h : H) (rest) : a < m → Tiles m b rest → Tiles a b (((a, m), h) :: rest)

end Verif.ChannelFlow
