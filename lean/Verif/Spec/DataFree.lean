import Verif.Model.DataFree
import Mathlib.Tactic.Abel
import Mathlib.Algebra.Order.Ring.Rat

/-! Definitions used in the statements of `Verif/Props/DataFree.lean`. -/

namespace Verif.DataFree
open Verif

variable {Z W G Ow Og : Type} [AddCommGroup W] [AddCommGroup G]

/-- What a run is about: student and generator with their optimizers. -/
structure Net (W G Ow Og : Type) where
  w : W
  g : G
  ow : Ow
  og : Og
deriving DecidableEq

/-- A student step with the gradient of the distillation loss, plus an extra gradient. -/
def Net.student (t : Task Z W G Ow Og) (extra : W) (v : Net W G Ow Og) (z : Z) : Net W G Ow Og :=
  { v with w := (t.optW v.ow v.w (extra + t.dist z v.w v.g)).2, ow := (t.optW v.ow v.w (extra + t.dist z v.w v.g)).1 }

/-- A generator step with the gradient of the generator loss. -/
def Net.generator (t : Task Z W G Ow Og) (v : Net W G Ow Og) (z : Z) : Net W G Ow Og :=
  { v with g := (t.optG v.og v.g (t.gen z v.w v.g).2).2, og := (t.optG v.og v.g (t.gen z v.w v.g).2).1 }

/-- The student steps of an iteration, each with its own gradient. -/
def Net.students (t : Task Z W G Ow Og) (zs : List Z) (v : Net W G Ow Og) : Net W G Ow Og := zs.foldl (Net.student t 0) v

/-- The noise used by the student passes. -/
def Noise.list (t : Task Z W G Ow Og) (n : Noise Z) : List Z := (List.range t.iters).map n.student

/-- The intended iteration. -/
def Net.step (t : Task Z W G Ow Og) (v : Net W G Ow Og) (n : Noise Z) : Net W G Ow Og :=
  if t.studentFirst then (v.students t (n.list t)).generator t n.gen else (v.generator t n.gen).students t (n.list t)

/-- The networks and optimizers in a state. -/
def St.net (s : St W G Ow Og) : Net W G Ow Og := ⟨s.w, s.g, s.ow, s.og⟩

/-- Rational parameters; distillation gradient `w - z`, generator gradient `z - w` for the student
and `1` for the generator, gradient descent with rate one. -/
def toy (iters : Nat) (first : Bool) : Task ℚ ℚ ℚ Unit Unit where
  gen z w _ := (z - w, 1)
  dist z w _ := w - z
  optW _ w g := ((), w - g)
  optG _ g d := ((), g - d)
  iters := iters
  studentFirst := first

end Verif.DataFree
