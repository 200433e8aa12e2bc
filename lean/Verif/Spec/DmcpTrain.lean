import Verif.Model.DmcpTrain
import Verif.Lemmas.Sandwich
import Mathlib.Tactic.Ring

/-! Definitions used in the statements of `Verif/Props/DmcpTrain.lean`. -/

namespace Verif.DmcpTrain
open Verif

variable {R B W A Ow Oa : Type} [AddCommGroup W] [AddCommGroup A]

/-- An event with another description of the teacher. -/
def Ev.map {T U : Type} (f : T → U) : Ev R B T → Ev R B U
  | .weight p te => .weight p (te.map f)
  | .arch b => .arch b

/-- The subnet to be trained for an entry of the strategy; `p` is the probability of a random
subnet, `u` the draw. -/
def wantedMode (arch : Bool) (p u : ℚ) : Kind → Option Mode
  | .max => some .max
  | .min => some .min
  | .archRandom => some (if arch then .direct else .random)
  | .scheduledRandom => some (if arch = true ∧ p < u then .direct else .random)
  | .ignored => none

/-- The weight steps of iteration `it` on batch `b`; `k` entries `scheduled_random` were treated
before in this process, `te` is the pass the teacher recorded last. -/
def wantedPasses (t : Task R B W A Ow Oa) (it : Nat) (b : B) : Nat → Option (Pass R B) → List (Name × R × ℚ) → List (Ev R B (Pass R B))
  | _, _, [] => []
  | k, te, (n, r, u) :: es =>
    let arch := decide (t.archStart < it)
    match wantedMode arch ((9999 / 10000) ^ k) u (kindOf n) with
    | none => wantedPasses t it b k te es
    | some .max => .weight ⟨.max, r, arch, b⟩ none :: wantedPasses t it b k (some ⟨.max, r, arch, b⟩) es
    | some m => .weight ⟨m, r, arch, b⟩ (if t.distillAfter < it then te else none) ::
        wantedPasses t it b (if kindOf n = .scheduledRandom then k + 1 else k) te es

/-- Number of entries `scheduled_random`. -/
def scheduled (l : List Name) : Nat := l.countP fun n => kindOf n = .scheduledRandom

/-- The steps of iterations `it`, `it + 1`, ...: after the weight steps the architecture
parameters are updated, in every `archFreq`-th iteration after `archStart`. -/
def wanted (t : Task R B W A Ow Oa) : Nat → Nat → List (B × List (R × ℚ)) → List (Ev R B (Pass R B))
  | _, _, [] => []
  | it, k, (b, ds) :: rest =>
    wantedPasses t it b k none (t.strategy.zip ds) ++
      (if t.archStart < it ∧ it % t.archFreq = 0 then [.arch b] else []) ++
      wanted t (it + 1) (k + scheduled t.strategy) rest

/-- Weights, architecture parameters, their optimizers, and the gradient that is already in the
weights. -/
structure View (W A Ow Oa : Type) where
  w : W
  ow : Ow
  a : A
  oa : Oa
  carry : W

/-- The effect of an event: a weight step uses the gradient of its own loss and what was left in
the weights; an update of the architecture parameters is a step with the gradient of the
architecture loss and a step with the gradient of the FLOPs loss, and leaves its gradient in the
weights. -/
def effect (t : Task R B W A Ow Oa) (v : View W A Ow Oa) : Ev R B (Pass R B × W × A) → View W A Ow Oa
  | .weight p te =>
    let g := (t.hard p v.w v.a).1 + (match te with
      | some r => (t.soft p r v.w v.a).1
      | none => 0)
    { v with w := (t.optW v.ow v.w (v.carry + g)).2, ow := (t.optW v.ow v.w (v.carry + g)).1, carry := 0 }
  | .arch b =>
    let g := t.archLoss b v.w v.a
    let r := t.optA v.oa v.a g.2
    let q := t.optA r.1 r.2 (t.flops r.2)
    { v with a := q.2, oa := q.1, carry := v.carry + g.1 }

/-- The relevant part of the state. -/
def St.view (s : St R B W A Ow Oa) : View W A Ow Oa := ⟨s.w, s.ow, s.a, s.oa, s.gw⟩

/-- A task over rational numbers: gradients are the batch number (times ten for the architecture
loss and a hundred for the FLOPs loss), optimizers subtract the gradient. -/
def toy (strategy : List Name) (start freq dist : Nat) : Task Nat Nat ℚ ℚ Unit Unit where
  strategy := strategy
  archStart := start
  archFreq := freq
  distillAfter := dist
  hard p _ _ := (p.batch, p.batch)
  soft _ te _ _ := (te.1.batch, te.1.batch)
  archLoss b _ _ := (10 * b, 10 * b)
  flops _ := 100
  optW _ w g := ((), w - g)
  optA _ a g := ((), a - g)

/-- The documented strategy. -/
def standard : List Name := ["max".toList, "min".toList, "scheduled_random".toList, "arch_random".toList]

end Verif.DmcpTrain
