import Verif.Model.Sandwich
import Mathlib.Data.List.Nodup
import Mathlib.Tactic.Ring
import Mathlib.Tactic.Linarith
import Mathlib.Tactic.FieldSimp
import Mathlib.Tactic.Positivity

/-! Definitions used in the statements of `Verif/Props/Sandwich.lean`. -/

namespace Verif.Sandwich
open Verif

variable {N B W O : Type} [AddCommGroup W] [Module ℚ W]

/-- The number of subnets trained on each batch. -/
def Task.size (t : Task N B W O) : Nat := (kinds t.algo t.num).length

/-- The gradient that training one kind contributes at weights `w`, the teacher being the
largest subnet on the same batch and at the same weights. -/
def lossGrad (t : Task N B W O) (pick : Kind → N) (b : B) (w : W) : Kind → W
  | .max => t.hard (pick .max) b w
  | .subnet i => t.hard (pick (.subnet i)) b w
  | k => match t.algo with
    | .bignas => t.soft (pick k) b (pick .max, b, w) w
    | _ => t.hard (pick k) b w + t.soft (pick k) b (pick .max, b, w) w

/-- The sum of the gradients of all kinds. -/
def batchGrad (t : Task N B W O) (w : W) (x : (Kind → N) × B) : W :=
  ((kinds t.algo t.num).map (lossGrad t x.1 x.2 w)).sum

/-- One optimizer step with the mean gradient over the subnets. -/
def meanStep (t : Task N B W O) (s : O × W) (x : (Kind → N) × B) : O × W :=
  t.opt s.1 s.2 ((1 / (t.size : ℚ)) • batchGrad t s.2 x)

/-- The forward passes of an iteration. -/
def forwards (t : Task N B W O) (w : W) (x : (Kind → N) × B) : List (N × B × W) :=
  (kinds t.algo t.num).map fun k => (x.1 k, x.2, w)

/-- The forward passes of iterations that each end with a `meanStep`. -/
def allForwards (t : Task N B W O) : List ((Kind → N) × B) → O × W → List (N × B × W)
  | [], _ => []
  | x :: xs, s => forwards t s.2 x ++ allForwards t xs (meanStep t s x)

/-- The gradient one forward and backward pass contributes at weights `w`, given what the
teacher recorded last. -/
def taughtGrad (t : Task N B W O) (te : Option (N × B × W)) (w : W) (x : Kind × (Kind → N) × B) : W :=
  match x.1 with
  | .max => t.hard (x.2.1 .max) x.2.2 w
  | .subnet i => t.hard (x.2.1 (.subnet i)) x.2.2 w
  | k => match te with
    | none => 0
    | some r => match t.algo with
      | .bignas => t.soft (x.2.1 k) x.2.2 r w
      | _ => t.hard (x.2.1 k) x.2.2 w + t.soft (x.2.1 k) x.2.2 r w

/-- What the teacher has recorded after the pass. -/
def taught (w : W) (te : Option (N × B × W)) (x : Kind × (Kind → N) × B) : Option (N × B × W) :=
  if x.1 = .max then some (x.2.1 .max, x.2.2, w) else te

/-- The sum of the gradients of several passes at the same weights. -/
def windowSum (t : Task N B W O) (w : W) : Option (N × B × W) → List (Kind × (Kind → N) × B) → W
  | _, [] => 0
  | te, x :: xs => taughtGrad t te w x + windowSum t w (taught w te x) xs

/-- One optimizer step with the mean gradient of several passes. -/
def windowStep (t : Task N B W O) (s : (O × W) × Option (N × B × W)) (l : List (Kind × (Kind → N) × B)) :
    (O × W) × Option (N × B × W) :=
  (t.opt s.1.1 s.1.2 ((1 / (l.length : ℚ)) • windowSum t s.1.2 s.2 l), l.foldl (taught s.1.2) s.2)

/-- The subnets to be trained on a batch: with the sandwich rule the largest, the smallest and
`n` random ones, for a slimmable network all `n`. -/
def expected (a : Algo) (n : Nat) (pick : Kind → N) : List N :=
  match a with
  | .slimmable => (List.range n).map fun i => pick (.subnet i)
  | _ => [pick .max, pick .min] ++ (List.range n).map fun i => pick (.random i)

/-- All passes of the given iterations. -/
def passes (t : Task N B W O) (xs : List ((Kind → N) × B)) : List (Kind × (Kind → N) × B) :=
  xs.flatMap fun x => (kinds t.algo t.num).map fun k => (k, x)

/-- A task with the weights a number and gradients that are one, or the weights. -/
def sample (acc : Nat) : Task Kind Unit ℚ Unit :=
  ⟨.autoslim, 0, acc, 4, fun k _ _ => if k = .max then 1 else 3, fun _ _ r w => r.2.2 - w, fun _ w g => ((), w - g)⟩

/-- The number of blocks of the class in the given layers. -/
def mbCount (layers : List (List Block)) : Nat := (layers.map fun l => l.countP (·.isMb)).sum

end Verif.Sandwich
