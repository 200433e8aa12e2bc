import Verif.Model.Groups
import Mathlib.Analysis.SpecialFunctions.Log.Deriv
import Mathlib.Analysis.SpecialFunctions.ExpDeriv

/-! Model of the architecture update of DSNAS, `mmrazor/models/algorithms/nas/dsnas.py` lines
153-163 and 207-255.

Tensors hold exact reals and the gradients of autograd are the partial derivatives. The sampled
architecture weights carry no gradient to the architecture parameters
(`OneHotCategorical.sample`, diff_mutable_module.py lines 284-290), so the only gradient of the
parameters is that of the mutator loss. -/

namespace Verif.DsnasArch
open Verif

/-- `F.softmax(arch_param, -1)`. -/
noncomputable def softmax {C : Type} [Fintype C] (a : C → ℝ) (i : C) : ℝ := Real.exp (a i) / ∑ j, Real.exp (a j)

/-- `arch_weights`: one for the sampled choice, zero for the others. -/
def oneHot {C : Type} [DecidableEq C] (k i : C) : ℝ := if i = k then 1 else 0

/-- The term of a mutable in `arch_loss`, dsnas.py lines 223-225. -/
noncomputable def logTerm {C : Type} [Fintype C] (w a : C → ℝ) : ℝ := Real.log (∑ i, w i * softmax a i)

variable {ι : Type} [Fintype ι] [DecidableEq ι] {C : ι → Type} [∀ m, Fintype (C m)] [∀ m, DecidableEq (C m)]

/-- The search: number of processes, `flops_loss_coef`, FLOPs of the candidates,
`flops_constraints` and FLOPs of the most probable subnet (dsnas.py lines 235-241). -/
structure Task (ι : Type) (C : ι → Type) where
  world : ℝ
  coef : ℝ
  flops : (m : ι) → C m → ℝ
  limit : ℝ
  subnet : ((m : ι) → C m → ℝ) → ℝ

open Classical in
/-- `compute_mutator_loss` followed by `parse_losses`, dsnas.py lines 207-245, for sampled
choices `k`. Whether the FLOPs term is added is decided by the values `at₀` of the parameters and is
not differentiated. -/
noncomputable def mutatorLoss (t : Task ι C) (k : (m : ι) → C m) (at₀ a : (m : ι) → C m → ℝ) : ℝ :=
  (∑ m, logTerm (oneHot (k m)) (a m)) / t.world +
    if t.subnet at₀ ≥ t.limit then (∑ m, softmax (a m) (k m) * t.flops m (k m)) * t.coef / t.world else 0

/-- The gradient computed by `backward`. -/
noncomputable def gradient (t : Task ι C) (k : (m : ι) → C m) (a : (m : ι) → C m → ℝ) : (m : ι) → C m → ℝ :=
  fun m j => deriv (fun x => mutatorLoss t k a (Function.update a m (Function.update (a m) j x))) (a m j)

/-- Architecture parameters, their `.grad`, and the optimizer. -/
structure St (ι : Type) (C : ι → Type) (O : Type) where
  a : (m : ι) → C m → ℝ
  grad : Option ((m : ι) → C m → ℝ)
  opt : O

/-- `handle_grads`, dsnas.py lines 247-255; `reward m` is the sum of the gradients of the
architecture weights. -/
def handle (reward : ι → ℝ) : Option ((m : ι) → C m → ℝ) → Except Err ((m : ι) → C m → ℝ)
  | none => .error .attribute
  | some g => .ok fun m j => g m j * reward m

/-- The update of the mutator, dsnas.py lines 155-163: `update_params` is `backward`, `step` and
`zero_grad`. `setNone` says whether `zero_grad` removes gradients (the default from PyTorch 2.0
on) or fills them with zeros. -/
noncomputable def mutatorStep {O : Type} (t : Task ι C) (setNone : Bool)
    (opt : O → ((m : ι) → C m → ℝ) → ((m : ι) → C m → ℝ) → O × ((m : ι) → C m → ℝ))
    (k : (m : ι) → C m) (reward : ι → ℝ) (s : St ι C O) : Except Err (St ι C O) :=
  let g := match s.grad with
    | none => gradient t k s.a
    | some g => fun m j => g m j + gradient t k s.a m j
  let r := opt s.opt s.a g
  let cleared := if setNone then none else some fun _ _ => 0
  (handle reward cleared).map fun g => ⟨r.2, some g, r.1⟩

/-- Several updates, each with its sampled choices and rewards. -/
noncomputable def run {O : Type} (t : Task ι C) (setNone : Bool)
    (opt : O → ((m : ι) → C m → ℝ) → ((m : ι) → C m → ℝ) → O × ((m : ι) → C m → ℝ)) :
    List (((m : ι) → C m) × (ι → ℝ)) → St ι C O → Except Err (St ι C O)
  | [], s => .ok s
  | x :: xs, s => (mutatorStep t setNone opt x.1 x.2 s).bind (run t setNone opt xs)

/-- The group whose parameters are used for the module `n`: dsnas.py lines 84, 220-222 and
250-252. The key is made from the prefix of the element and the place of the module in the list of
searchable modules. -/
def paramGroup {K : Type} [DecidableEq K] (net : Groups.Net K) (custom : List (List K)) (n : K) :
    Except Err (List (Groups.Mut K)) :=
  match Groups.build net custom with
  | .error e => .error e
  | .ok gs =>
    match Groups.mutOf net n, (net.filter (fun e => !e.2.isEmpty)).findIdx? (fun e => decide (e.1 = n)) with
    | some m, some i =>
      match gs.find? (fun g => decide (g.1 = (m.pre, i))) with
      | some g => .ok g.2
      | none => .error .key
    | _, _ => .error .value

end Verif.DsnasArch
