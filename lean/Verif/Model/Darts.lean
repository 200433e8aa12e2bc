import Mathlib.Algebra.Module.Basic
import Mathlib.Algebra.Order.Field.Rat
import Verif.Py

/-!
Model of DARTS training, `/repo/mmrazor/models/algorithms/nas/darts.py`.

The weights of the network are a vector `V`, the architecture parameters a
vector `A`; the derivatives of the loss on a batch are oracles.  What is
modelled is the state PyTorch keeps between the calls: the values of the
parameters and their accumulated `.grad`.  `loss.backward()` *adds* to `.grad`
in place, so a Python variable bound to `param.grad` reads, later, the later
contents: such a variable is a projection of the state (`Ref`), evaluated where
the program reads it.
-/
namespace Verif.Darts

/-- Derivatives of the loss of a batch with respect to the weights and to the
architecture parameters. -/
structure Loss (B V A : Type) where
  gW : B → V → A → V
  gA : B → V → A → A

/-- Parameters and their accumulated gradients.  (A gradient that is `None` is
zero here: the first `backward` then sets it to the derivative.) -/
structure St (V A : Type) where
  w : V
  a : A
  gw : V
  ga : A
deriving DecidableEq

/-- A Python variable bound to a tensor of the state. -/
abbrev Ref (V A X : Type) := St V A → X

variable {B V A : Type} [AddCommGroup V] [Module ℚ V] [AddCommGroup A] [Module ℚ A]

/-- `optim_wrapper[...].backward(loss)`: forward on batch `b` at the current
parameters, then accumulate both gradients. -/
def backward (L : Loss B V A) (b : B) (s : St V A) : St V A :=
  { s with gw := s.gw + L.gW b s.w s.a, ga := s.ga + L.gA b s.w s.a }

/-- `_restore_weights`, darts.py 225-230. -/
def restore (backup : V) (s : St V A) : St V A := { s with w := backup }

/-- `_compute_virtual_model`, darts.py 206-223.  The last line,
`w = w - lr * (...)`, computes the stepped weights and binds them to the loop
variable: the parameter itself is not written. -/
def virtualModel (L : Loss B V A) (trn : B) (lr momentum wd : ℚ) (buf : V) (s : St V A) :
    St V A :=
  let s := backward L trn s
  let _w := s.w - lr • (momentum • buf + s.gw + wd • s.w)
  s

/-- One turn of the loop of `_compute_hessian`, darts.py 252-265:
`p += e * d`, forward and backward on the training batch, and a reference to
the architecture gradients. -/
def perturb (L : Loss B V A) (trn : B) (dw : Ref V A V) (e : ℚ) (s : St V A) :
    St V A × Ref V A A :=
  (backward L trn { s with w := s.w + e • dw s }, fun s => s.ga)

/-- `_compute_hessian`, darts.py 232-272; `epsOf` gives `0.01 / ‖dw‖`. -/
def hessian (L : Loss B V A) (trn : B) (epsOf : V → ℚ) (backup : V) (dw : Ref V A V)
    (s : St V A) : St V A × A :=
  let s := restore backup s
  let eps := epsOf (dw s)
  let (s, pos) := perturb L trn dw eps s
  let (s, neg) := perturb L trn dw (-2 * eps) s
  (s, (1 / (2 * eps)) • (pos s - neg s))

/-- `_unrolled_backward`, darts.py 162-204. -/
def unrolled (L : Loss B V A) (trn val : B) (lr momentum wd : ℚ) (buf : V) (epsOf : V → ℚ)
    (s : St V A) : St V A :=
  let backup := s.w
  let s := virtualModel L trn lr momentum wd buf s
  let s := backward L val s
  let dModel : Ref V A V := fun s => s.gw
  let dArch : Ref V A A := fun s => s.ga
  let (s, h) := hessian L trn epsOf backup dModel s
  let s := { s with ga := dArch s - lr • h }
  restore backup s

/-- The optimisers: new parameters from the old ones and `.grad`. -/
structure Opt (V A : Type) where
  stepW : V → V → V
  stepA : A → A → A

/-- `optim_wrapper['architecture'].update_params(loss)` of mmengine (assumed:
`backward`, `step`, `zero_grad` of its own parameters, no accumulation). -/
def updateW (L : Loss B V A) (O : Opt V A) (b : B) (s : St V A) : St V A :=
  let s := backward L b s
  { s with w := O.stepW s.w s.gw, gw := 0 }

/-- `optim_wrapper['mutator'].update_params(loss)`. -/
def updateA (L : Loss B V A) (O : Opt V A) (b : B) (s : St V A) : St V A :=
  let s := backward L b s
  { s with a := O.stepA s.a s.ga, ga := 0 }

/-- `Darts.train_step` with one optimiser per part, darts.py 105-148. -/
def trainStep (L : Loss B V A) (O : Opt V A) (unroll : Bool) (lr momentum wd : ℚ) (buf : V)
    (epsOf : V → ℚ) (trn val : B) (s : St V A) : St V A :=
  if unroll then
    let s := unrolled L trn val lr momentum wd buf epsOf { s with ga := 0 }
    updateW L O trn { s with a := O.stepA s.a s.ga }
  else
    updateW L O trn (updateA L O val s)

/-- The same with the check of the number of batches, darts.py 107-112. -/
def trainStep? (L : Loss B V A) (O : Opt V A) (unroll : Bool) (lr momentum wd : ℚ) (buf : V)
    (epsOf : V → ℚ) (data : List B) (s : St V A) : Except Err (St V A) :=
  match data with
  | [trn, val] => .ok (trainStep L O unroll lr momentum wd buf epsOf trn val s)
  | _ => .error .assertion

/-- `Darts.train_step` with a single optimiser over the weights, darts.py
150-159. -/
def trainSingle (L : Loss B V A) (O : Opt V A) (b : B) (s : St V A) : St V A :=
  updateW L O b s

/-- A training run: one `(training batch, validation batch)` per iteration. -/
def run (L : Loss B V A) (O : Opt V A) (unroll : Bool) (lr momentum wd : ℚ) (buf : V)
    (epsOf : V → ℚ) (s : St V A) (data : List (B × B)) : St V A :=
  data.foldl (fun s b => trainStep L O unroll lr momentum wd buf epsOf b.1 b.2 s) s

end Verif.Darts
