import Verif.Lemmas.DiffMix
import Mathlib.Analysis.Normed.Module.Basic

/-! Property C118: how the unfixed differentiable mutables mix their candidates. -/

namespace Verif.DiffMix
open Verif DsnasArch

section
variable {n : ℕ} {V : Type} [AddCommGroup V] [Module ℝ V]

/-- The weights are positive and sum to one, every candidate is run, and the result is their weighted sum. -/
theorem C118_weights (a : Fin n → ℝ) (hn : 0 < n) (out : Fin n → V) :
    (∀ i, 0 < probs a i) ∧ ∑ i, probs a i = 1 ∧ mix (probs a) out = ∑ i, probs a i • out i :=
  ⟨fun i => softmax_pos i a, soft_sum a ⟨0, hn⟩, mix_pos (probs a) (fun i => softmax_pos i a) out⟩

example : probs (fun _ : Fin 4 => (0 : ℝ)) 2 = 1 / 4 := by simp [probs, softmax]

/-- The mixture lies in every convex set that holds all candidates' results: in an interval, in a ball, or in the set of
non-negative maps, say. -/
theorem C118_convex (a : Fin n → ℝ) (hn : 0 < n) (out : Fin n → V) (s : Set V) (hs : Convex ℝ s) (h : ∀ i, out i ∈ s) :
    mix (probs a) out ∈ s := by
  obtain ⟨h1, h2, h3⟩ := C118_weights a hn out
  rw [h3]
  exact hs.sum_mem (fun i _ => (h1 i).le) h2 fun i _ => h i

example : mix (probs fun _ : Fin 2 => (0 : ℝ)) (fun i => if i = 0 then (1 : ℝ) else 3) = 2 := by
  rw [(C118_weights _ (by norm_num) _).2.2]
  simp [Fin.sum_univ_two, probs, softmax]
  norm_num

/-- Adding the same number to all parameters changes nothing. -/
theorem C118_shift (a : Fin n → ℝ) (c : ℝ) (out : Fin n → V) : mix (probs fun i => a i + c) out = mix (probs a) out := by
  have : probs (fun i => a i + c) = probs a := by
    funext i
    exact soft_shift a c i
  rw [this]

example : probs (fun i : Fin 2 => (i : ℝ) + 5) 1 = probs (fun i : Fin 2 => (i : ℝ)) 1 := soft_shift _ _ _

/-- A larger parameter is a larger weight, and the candidate with the largest parameter, which is the one reported at the
end of the search, has at least the weight of an even mixture. -/
theorem C118_reported (a : Fin n → ℝ) (k : Fin n) (hk : ∀ i, a i ≤ a k) :
    (∀ i j, probs a i ≤ probs a j ↔ a i ≤ a j) ∧ 1 / (n : ℝ) ≤ probs a k := by
  refine ⟨fun i j => soft_order a i j, ?_⟩
  have h1 : ∀ i ∈ Finset.univ, softmax a i ≤ softmax a k := fun i _ => (soft_order a i k).2 (hk i)
  have h2 := Finset.sum_le_card_nsmul _ _ _ h1
  rw [soft_sum a k, nsmul_eq_mul, Finset.card_univ, Fintype.card_fin] at h2
  rw [div_le_iff₀ (by exact_mod_cast k.pos)]
  unfold probs
  linarith

example : ∀ i : Fin 3, ![(1 : ℝ), 3, 2] i ≤ ![(1 : ℝ), 3, 2] 1 := by
  intro i
  fin_cases i <;> norm_num

/-- The gradient of the loss for an architecture parameter that autograd computes is the derivative of the loss through
the mixture: the weight of the candidate times how much worse than the mixture it is. So a step of gradient descent raises
the parameter of exactly the candidates that are better than the mixture. -/
theorem C118_gradient (a : Fin n → ℝ) (up : V →ₗ[ℝ] ℝ) (out : Fin n → V) (j : Fin n) :
    HasDerivAt (fun x => up (mix (probs (Function.update a j x)) out)) (archGrad 1 (probs a) (probs a) up out j) (a j) ∧
      archGrad 1 (probs a) (probs a) up out j = probs a j * (up (out j) - up (mix (probs a) out)) := by
  have hp : ∀ i, 0 < probs a i := fun i => softmax_pos i a
  have e : archGrad 1 (probs a) (probs a) up out j = ∑ i, softDeriv 1 (probs a) i j * up (out i) := by
    rw [archGrad, Finset.filter_true_of_mem fun i _ => hp i]
  rw [e, mix_pos (probs a) hp]
  constructor
  · have := mix_deriv 1 (fun _ => 0) a up out j
    simp only [← plain_gumbel] at this
    exact this
  · rw [grad_eq, div_one]

example : archGrad 1 (probs fun _ : Fin 2 => (0 : ℝ)) (probs fun _ : Fin 2 => (0 : ℝ)) LinearMap.id
    (fun i => if i = 0 then (1 : ℝ) else 3) 0 = -1 / 2 := by
  rw [(C118_gradient _ _ _ _).2, (C118_weights _ (by norm_num) _).2.2]
  simp [Fin.sum_univ_two, probs, softmax]
  norm_num

/-- The soft Gumbel sample is a mixture of the same kind, and its gradient is exact at every temperature. -/
theorem C118_gumbel_soft (tau : ℝ) (noise a : Fin n → ℝ) (up : V →ₗ[ℝ] ℝ) (out : Fin n → V) (j : Fin n) :
    (∀ i, 0 < gumbelSoft tau noise a i) ∧ ∑ i, gumbelSoft tau noise a i = 1 ∧
      HasDerivAt (fun x => up (mix (gumbelSoft tau noise (Function.update a j x)) out))
        (archGrad tau (gumbelSoft tau noise a) (gumbelSoft tau noise a) up out j) (a j) := by
  have hp : ∀ i, 0 < gumbelSoft tau noise a i := fun i => softmax_pos i _
  refine ⟨hp, soft_sum _ j, ?_⟩
  rw [archGrad, Finset.filter_true_of_mem fun i _ => hp i]
  exact mix_deriv tau noise a up out j

example : gumbelSoft 2 (fun _ => 1) (fun _ : Fin 5 => (0 : ℝ)) 3 = 1 / 5 := by
  have := Real.exp_ne_zero (2⁻¹ : ℝ)
  simp [gumbelSoft, softmax]
  field_simp

/-- With hard samples exactly one edge is run and its result is returned unscaled: an edge whose parameter plus noise is
largest, whatever the temperature. -/
theorem C118_gumbel_hard (tau : ℝ) (ht : 0 < tau) (noise a : Fin n → ℝ) (k : Fin n)
    (hk : ∀ i, gumbelSoft tau noise a i ≤ gumbelSoft tau noise a k) (out : Fin n → V) :
    mix (gumbelHard tau noise a k) out = out k ∧ (∀ i, gumbelHard tau noise a k i > 0 ↔ i = k) ∧
      ∀ i, a i + noise i ≤ a k + noise k := by
  refine ⟨?_, ?_, ?_⟩
  · have : Finset.univ.filter (fun i => gumbelHard tau noise a k i > 0) = {k} := by
      ext i
      simp only [Finset.mem_filter, Finset.mem_univ, true_and, Finset.mem_singleton, hard_eq]
      split <;> simp_all
    rw [mix, this, Finset.sum_singleton, hard_eq, if_pos rfl, one_smul]
  · intro i
    rw [hard_eq]
    split <;> simp_all
  · intro i
    have := (soft_order (fun i => (a i + noise i) / tau) i k).1 (hk i)
    rwa [div_le_div_iff_of_pos_right ht] at this

example : ∀ i, gumbelSoft 1 (fun _ => 0) ![(1 : ℝ), 3] i ≤ gumbelSoft 1 (fun _ => 0) ![(1 : ℝ), 3] 1 := by
  intro i
  rw [gumbelSoft, soft_order]
  fin_cases i <;> norm_num

/-- DISAGREEMENT: the docstring says that hard samples are differentiated as if they were the soft sample. The edges that
are not sampled are not run, so their part of the gradient is missing: whenever all edges give the same result, which
makes the soft sample independent of the parameters, the parameter of the sampled edge still gets a gradient that is not
zero (if there are at least two edges and the loss depends on the result). -/
theorem C118_gumbel_gradient_violated (tau : ℝ) (ht : 0 < tau) (noise a : Fin n → ℝ) (hn : 2 ≤ n) (k : Fin n)
    (up : V →ₗ[ℝ] ℝ) (o : V) (ho : up o ≠ 0) :
    HasDerivAt (fun x => up (mix (gumbelSoft tau noise (Function.update a k x)) fun _ => o)) 0 (a k) ∧
      archGrad tau (gumbelHard tau noise a k) (gumbelSoft tau noise a) up (fun _ => o) k ≠ 0 := by
  have hp : ∀ i, 0 < gumbelSoft tau noise a i := fun i => softmax_pos i _
  have hsum : ∑ i, gumbelSoft tau noise a i = 1 := soft_sum _ k
  constructor
  · have := mix_deriv tau noise a up (fun _ => o) k
    rw [grad_eq] at this
    simp only [← Finset.sum_smul, hsum, one_smul, sub_self, mul_zero, zero_div] at this
    exact this
  · have hf : Finset.univ.filter (fun i => gumbelHard tau noise a k i > 0) = {k} := by
      ext i
      simp only [Finset.mem_filter, Finset.mem_univ, true_and, Finset.mem_singleton, hard_eq]
      split <;> simp_all
    rw [archGrad, hf, Finset.sum_singleton, softDeriv, if_pos rfl]
    have hlt : gumbelSoft tau noise a k < 1 := by
      obtain ⟨i, hi⟩ : ∃ i : Fin n, i ≠ k := by
        by_cases h0 : k.1 = 0
        · exact ⟨⟨1, by omega⟩, by intro e; rw [← e] at h0; simp at h0⟩
        · exact ⟨⟨0, by omega⟩, by intro e; rw [← e] at h0; simp at h0⟩
      rw [← hsum, ← Finset.add_sum_erase _ _ (Finset.mem_univ k)]
      have : 0 < ∑ i ∈ Finset.univ.erase k, gumbelSoft tau noise a i :=
        Finset.sum_pos (fun i _ => hp i) ⟨i, Finset.mem_erase.2 ⟨hi, Finset.mem_univ i⟩⟩
      linarith
    have h1 : 0 < 1 - gumbelSoft tau noise a k := by linarith
    exact mul_ne_zero (div_ne_zero (mul_ne_zero (hp k).ne' h1.ne') ht.ne') ho

example : (LinearMap.id : ℝ →ₗ[ℝ] ℝ) 1 ≠ 0 := by simp

end

section
variable {n : ℕ} {V : Type} [NormedAddCommGroup V] [NormedSpace ℝ V]

/-- The supernet against the subnet that keeps candidate `k`: they differ by at most the weight of the other candidates
times the largest distance between their results and that of `k`; with a margin `m` between the parameters that weight is
at most `(n - 1) exp(-m)`. -/
theorem C118_discretised (a : Fin n → ℝ) (k : Fin n) (out : Fin n → V) (D : ℝ) (hD : ∀ i, ‖out i - out k‖ ≤ D) (m : ℝ)
    (hm : ∀ i, i ≠ k → a i + m ≤ a k) :
    ‖mix (probs a) out - out k‖ ≤ (1 - probs a k) * D ∧
      ‖mix (probs a) out - out k‖ ≤ ((n : ℝ) - 1) * Real.exp (-m) * D := by
  have hp : ∀ i, 0 < probs a i := fun i => softmax_pos i a
  have hsum : ∑ i, probs a i = 1 := soft_sum a k
  have hD0 : 0 ≤ D := (norm_nonneg _).trans (hD k)
  have e : mix (probs a) out - out k = ∑ i ∈ Finset.univ.erase k, probs a i • (out i - out k) := by
    rw [mix_pos (probs a) hp]
    have h1 : out k = ∑ i, probs a i • out k := by rw [← Finset.sum_smul, hsum, one_smul]
    have h2 : ∑ i, probs a i • out i - out k = ∑ i, probs a i • (out i - out k) := by
      simp only [smul_sub, Finset.sum_sub_distrib]
      rw [← h1]
    rw [h2, ← Finset.add_sum_erase _ _ (Finset.mem_univ k), sub_self, smul_zero, zero_add]
  have h1 : ∑ i ∈ Finset.univ.erase k, probs a i = 1 - probs a k := by
    rw [← hsum, ← Finset.add_sum_erase _ _ (Finset.mem_univ k)]; ring
  have key : ‖mix (probs a) out - out k‖ ≤ (1 - probs a k) * D := by
    rw [e, ← h1, Finset.sum_mul]
    refine (norm_sum_le _ _).trans (Finset.sum_le_sum fun i _ => ?_)
    rw [norm_smul, Real.norm_eq_abs, abs_of_pos (hp i)]
    exact mul_le_mul_of_nonneg_left (hD i) (hp i).le
  exact ⟨key, key.trans (mul_le_mul_of_nonneg_right (soft_margin a k m hm) hD0)⟩

example : ∀ i : Fin 2, i ≠ 1 → ![(0 : ℝ), 7] i + 7 ≤ ![(0 : ℝ), 7] 1 := by
  intro i
  fin_cases i <;> norm_num

/-- At low temperature the soft Gumbel sample is close to the hard one: with a margin `m` between parameters plus noise
the results differ by at most `(n - 1) exp(-m / tau)` times the largest distance. -/
theorem C118_gumbel_temperature (tau : ℝ) (ht : 0 < tau) (noise a : Fin n → ℝ) (k : Fin n) (out : Fin n → V) (D : ℝ)
    (hD : ∀ i, ‖out i - out k‖ ≤ D) (m : ℝ) (hm : ∀ i, i ≠ k → a i + noise i + m ≤ a k + noise k) :
    ‖mix (gumbelSoft tau noise a) out - out k‖ ≤ ((n : ℝ) - 1) * Real.exp (-(m / tau)) * D := by
  have := (C118_discretised (fun i => (a i + noise i) / tau) k out D hD (m / tau) (by
    intro i hi
    rw [← add_div]
    exact div_le_div_of_nonneg_right (hm i hi) ht.le)).2
  exact this

example : ∀ i : Fin 2, i ≠ 1 → ![(0 : ℝ), 7] i + 0 + 7 ≤ ![(0 : ℝ), 7] 1 + 0 := by
  intro i
  fin_cases i <;> norm_num

end

/-- Whatever was sampled, the gradients for the parameters of a module sum to zero: plain gradient descent keeps the sum
of the parameters, so only their differences are learned. -/
theorem C118_gradient_sum {n : ℕ} {V : Type} [AddCommGroup V] [Module ℝ V] (tau : ℝ) (noise a y : Fin n → ℝ)
    (up : V →ₗ[ℝ] ℝ) (out : Fin n → V) (rate : ℝ) :
    ∑ j, archGrad tau y (gumbelSoft tau noise a) up out j = 0 ∧
      ∑ j, (a j - rate * archGrad tau y (gumbelSoft tau noise a) up out j) = ∑ j, a j := by
  have h0 : ∑ j, archGrad tau y (gumbelSoft tau noise a) up out j = 0 := by
    unfold archGrad
    rw [Finset.sum_comm]
    refine Finset.sum_eq_zero fun i _ => ?_
    rw [← Finset.sum_mul]
    have hs : ∑ j, gumbelSoft tau noise a j = 1 := soft_sum _ i
    unfold softDeriv
    rw [← Finset.sum_div, ← Finset.mul_sum, Finset.sum_sub_distrib, hs, Finset.sum_ite_eq Finset.univ i,
      if_pos (Finset.mem_univ i), sub_self, mul_zero, zero_div, zero_mul]
  refine ⟨h0, ?_⟩
  rw [Finset.sum_sub_distrib, ← Finset.mul_sum, h0, mul_zero, sub_zero]

example : ∑ j, ![(2 : ℝ) - 1 / 10 * 3, 5 - 1 / 10 * (-3)] j = ∑ j, ![(2 : ℝ), 5] j := by
  simp [Fin.sum_univ_two]

section
variable {n : ℕ} {V : Type} [AddCommGroup V] [Module ℝ V]

/-- A candidate that has the largest parameter (from the start, for example, when all parameters start equal) and gives
the least loss in every step keeps the largest parameter: its lead over each of the others never shrinks, whatever the
weights of the candidates are trained to in between. -/
theorem C118_lead (a : Fin n → ℝ) (s : ℕ → Step n V) (b : Fin n) (hr : ∀ t, 0 ≤ (s t).rate)
    (hb : ∀ t i, (s t).up ((s t).out b) ≤ (s t).up ((s t).out i)) (ha : ∀ i, a i ≤ a b) (t : ℕ) (i : Fin n) :
    archRun a s t i ≤ archRun a s t b ∧ a b - a i ≤ archRun a s t b - archRun a s t i := by
  induction t generalizing i with
  | zero => exact ⟨ha i, le_refl _⟩
  | succ t ih =>
    have := step_lead (archRun a s t) (s t) b (hr t) (hb t) (fun i => (ih i).1) i
    have h1 := (ih i).1
    have h2 := (ih i).2
    rw [archRun]
    constructor <;> linarith

example : ∀ i : Fin 3, (fun _ => (0 : ℝ)) i ≤ (fun _ => (0 : ℝ)) 1 := fun _ => le_refl _

/-- Of two candidates the one that is better in every step, by any margin, has the larger parameter from some step on,
however the parameters start: it is the one reported. -/
theorem C118_better_wins (a : Fin 2 → ℝ) (s : ℕ → Step 2 V) {b o : Fin 2} (h : b ≠ o) {r d : ℝ} (hr : 0 < r)
    (hrate : ∀ t, r ≤ (s t).rate) (hd : 0 < d) (hb : ∀ t, (s t).up ((s t).out b) + d ≤ (s t).up ((s t).out o)) :
    ∃ T, ∀ t, T ≤ t → archRun a s t o < archRun a s t b := by
  set c := 2 * r * (Real.exp (a b - a o) / 4) * d with hc
  have hcp : 0 < c := by positivity
  have hpos : ∀ (x : Fin 2 → ℝ) i, 0 < probs x i := fun x i => softmax_pos i x
  have mono : ∀ t, archRun a s t b - archRun a s t o < archRun a s (t + 1) b - archRun a s (t + 1) o := by
    intro t
    rw [archRun, step_two _ _ h]
    have h1 := hb t
    have h2 : 0 < (s t).rate := hr.trans_le (hrate t)
    have h3 : 0 < (s t).up ((s t).out o) - (s t).up ((s t).out b) := by linarith
    have := hpos (archRun a s t) b
    have := hpos (archRun a s t) o
    have : 0 < 2 * (s t).rate * (probs (archRun a s t) b * probs (archRun a s t) o) *
      ((s t).up ((s t).out o) - (s t).up ((s t).out b)) := by positivity
    linarith
  have smono : StrictMono fun t => archRun a s t b - archRun a s t o := strictMono_nat_of_lt_succ mono
  have grow : ∀ t, archRun a s t b ≤ archRun a s t o → a b - a o + t * c ≤ archRun a s t b - archRun a s t o := by
    intro t
    induction t with
    | zero => intro _; simp [archRun]
    | succ t ih =>
      intro ht
      have h1 : archRun a s t b ≤ archRun a s t o := by
        have := mono t
        linarith
      have h2 := ih h1
      have h3 := two_product (archRun a s t) h (a b - a o) (by
        have : 0 ≤ (t : ℝ) * c := by positivity
        linarith) h1
      rw [archRun, step_two _ _ h]
      have h4 : c ≤ 2 * (s t).rate * (probs (archRun a s t) b * probs (archRun a s t) o) *
          ((s t).up ((s t).out o) - (s t).up ((s t).out b)) := by
        have h5 := hrate t
        have h6 := hb t
        have h7 : d ≤ (s t).up ((s t).out o) - (s t).up ((s t).out b) := by linarith
        have h8 := Real.exp_pos (a b - a o)
        rw [hc]
        have h9 := hr.le.trans h5
        gcongr
        exact mul_nonneg (mul_nonneg (by norm_num) h9) (mul_pos (hpos _ _) (hpos _ _)).le
      push_cast
      linarith
  obtain ⟨T, hT⟩ := exists_nat_gt ((a o - a b) / c)
  refine ⟨T, fun t ht => ?_⟩
  by_contra hcon
  push Not at hcon
  have h1 := grow t hcon
  rw [div_lt_iff₀ hcp] at hT
  have : (T : ℝ) * c ≤ t * c := by gcongr
  have h2 := sub_nonpos.2 hcon
  linarith

example : ∃ T, ∀ t, T ≤ t → archRun ![(0 : ℝ), 100] (fun _ => ⟨1 / 1000, LinearMap.id, ![(1 : ℝ), 2]⟩) t 1 <
    archRun ![(0 : ℝ), 100] (fun _ => ⟨1 / 1000, LinearMap.id, ![(1 : ℝ), 2]⟩) t 0 :=
  C118_better_wins _ _ (by decide) (r := 1 / 1000) (d := 1) (by norm_num) (fun _ => le_refl _) (by norm_num) fun _ => by norm_num

end

end Verif.DiffMix
