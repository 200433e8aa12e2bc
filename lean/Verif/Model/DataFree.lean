import Verif.Py
import Mathlib.Algebra.Group.Pi.Basic
import Mathlib.Algebra.Group.Defs

/-! Model of the training steps of data-free distillation,
`mmrazor/models/algorithms/distill/configurable/datafree_distillation.py` lines 81-229.

Losses are represented by their gradients. The generator loss depends on the generator and, through
the student's outputs on the generated images, on the student (lines 156-170); the distillation loss
depends on the student only, as the images are detached (lines 122-138). The teachers are frozen
(lines 61-62). `OptimWrapper.update_params` (mmengine, without accumulation) adds the gradients of
the loss to all parameters it depends on, then steps and clears the parameters of its own
optimizer. -/

namespace Verif.DataFree
open Verif

/-- The gradients of the two losses, the optimizers, `student_iter` and `student_train_first`.
`Z` is what a loss depends on beside the parameters: the batch and the noise. -/
structure Task (Z W G Ow Og : Type) where
  gen : Z → W → G → W × G
  dist : Z → W → G → W
  optW : Ow → W → W → Ow × W
  optG : Og → G → G → Og × G
  iters : Nat
  studentFirst : Bool

/-- Student, generator, their gradients and optimizers. -/
structure St (W G Ow Og : Type) where
  w : W
  g : G
  gw : W
  gg : G
  ow : Ow
  og : Og
deriving DecidableEq

variable {Z W G Ow Og : Type} [AddCommGroup W] [AddCommGroup G]

/-- One pass of the loop in `train_student`, lines 121-139. -/
def St.student (t : Task Z W G Ow Og) (s : St W G Ow Og) (z : Z) : St W G Ow Og :=
  { s with
    w := (t.optW s.ow s.w (s.gw + t.dist z s.w s.g)).2
    ow := (t.optW s.ow s.w (s.gw + t.dist z s.w s.g)).1
    gw := 0 }

/-- `train_generator`, lines 143-172. -/
def St.generator (t : Task Z W G Ow Og) (s : St W G Ow Og) (z : Z) : St W G Ow Og :=
  { s with
    g := (t.optG s.og s.g (s.gg + (t.gen z s.w s.g).2)).2
    og := (t.optG s.og s.g (s.gg + (t.gen z s.w s.g).2)).1
    gg := 0
    gw := s.gw + (t.gen z s.w s.g).1 }

/-- The noise of an iteration: that of the generator, and that of each student pass. -/
structure Noise (Z : Type) where
  gen : Z
  student : Nat → Z

/-- `train_student`, lines 109-141. Without a pass the name `distill_log_vars` is not bound
(line 140). -/
def St.students (t : Task Z W G Ow Og) (n : Noise Z) (s : St W G Ow Og) : Except Err (St W G Ow Og) :=
  if t.iters = 0 then .error .name
  else .ok ((List.range t.iters).foldl (fun s i => s.student t (n.student i)) s)

/-- `DataFreeDistillation.train_step`, lines 81-107. -/
def St.step (t : Task Z W G Ow Og) (s : St W G Ow Og) (n : Noise Z) : Except Err (St W G Ow Og) :=
  if t.studentFirst then (s.students t n).map fun s => s.generator t n.gen
  else (s.generator t n.gen).students t n

/-- Several iterations. -/
def St.run (t : Task Z W G Ow Og) : List (Noise Z) → St W G Ow Og → Except Err (St W G Ow Og)
  | [], s => .ok s
  | n :: ns, s => (s.step t n).bind (St.run t ns)

/-- `DAFLDataFreeDistillation.train_step`, lines 178-229: both losses are computed first, on the
same images. -/
def St.dafl (t : Task Z W G Ow Og) (s : St W G Ow Og) (z : Z) : St W G Ow Og :=
  let a := t.gen z s.w s.g
  let d := t.dist z s.w s.g
  let r := t.optG s.og s.g (s.gg + a.2)
  let gw := s.gw + a.1
  let q := t.optW s.ow s.w (gw + d)
  ⟨q.2, r.2, 0, 0, q.1, r.1⟩

/-- A new process. -/
def fresh (w : W) (g : G) (ow : Ow) (og : Og) : St W G Ow Og := ⟨w, g, 0, 0, ow, og⟩

end Verif.DataFree
