import Verif.Model.DsnasArch
import Mathlib.Analysis.Convex.Combination
import Mathlib.Algebra.BigOperators.Group.Finset.Basic

/-! Model of the weights and values of the unfixed differentiable mutables, `mmrazor/models/mutables/mutable_module/
diff_mutable_module.py`: `DiffMutableOP`, `DiffChoiceRoute` and `GumbelChoiceRoute`. The candidates (or edges) are numbered,
`out i` is what candidate `i` returns for the input at hand; numbers are exact reals. -/

namespace Verif.DiffMix

variable {n : ℕ} {V : Type} [AddCommGroup V] [Module ℝ V]

/-- `compute_arch_probs`, lines 71-73. -/
noncomputable def probs (a : Fin n → ℝ) : Fin n → ℝ := DsnasArch.softmax a

/-- `forward_arch_param`, lines 182-191 and 445-469: candidates whose weight is not positive are not run. -/
noncomputable def mix (p : Fin n → ℝ) (out : Fin n → V) : V :=
  ∑ i ∈ Finset.univ.filter (fun i => p i > 0), p i • out i

/-- The soft sample of `F.gumbel_softmax` (torch), lines 575-578: `noise` are the Gumbel numbers drawn. -/
noncomputable def gumbelSoft (tau : ℝ) (noise a : Fin n → ℝ) : Fin n → ℝ :=
  DsnasArch.softmax fun i => (a i + noise i) / tau

/-- The hard sample, `y_hard - y_soft.detach() + y_soft` with a one at the position `k` of the largest soft weight (with
several largest ones torch picks any of them). -/
noncomputable def gumbelHard (tau : ℝ) (noise a : Fin n → ℝ) (k i : Fin n) : ℝ :=
  ((if i = k then 1 else 0) - gumbelSoft tau noise a i) + gumbelSoft tau noise a i

/-- The derivative of a soft weight by an architecture parameter, as autograd computes it. -/
noncomputable def softDeriv (tau : ℝ) (p : Fin n → ℝ) (i j : Fin n) : ℝ := p i * ((if i = j then 1 else 0) - p j) / tau

/-- The gradient of the loss for parameter `j`, when `up` is its derivative by the output of the module: a sum over the
candidates that were run. `y` are the weights of the forward pass, `p` those that are differentiated (the hard sample
is differentiated like the soft one). -/
noncomputable def archGrad (tau : ℝ) (y p : Fin n → ℝ) (up : V →ₗ[ℝ] ℝ) (out : Fin n → V) (j : Fin n) : ℝ :=
  ∑ i ∈ Finset.univ.filter (fun i => y i > 0), softDeriv tau p i j * up (out i)

/-- What a step of the architecture optimizer (plain gradient descent) depends on: its rate, the derivative of the loss and
the candidates' results, which change while the weights are trained. -/
structure Step (n : ℕ) (V : Type) [AddCommGroup V] [Module ℝ V] where
  rate : ℝ
  up : V →ₗ[ℝ] ℝ
  out : Fin n → V

/-- One step for the parameters of a module that mixes its candidates. -/
noncomputable def archStep (a : Fin n → ℝ) (s : Step n V) : Fin n → ℝ :=
  fun j => a j - s.rate * archGrad 1 (probs a) (probs a) s.up s.out j

/-- The parameters after `t` steps. -/
noncomputable def archRun (a : Fin n → ℝ) (s : ℕ → Step n V) : ℕ → Fin n → ℝ
  | 0 => a
  | t + 1 => archStep (archRun a s t) (s t)

end Verif.DiffMix
