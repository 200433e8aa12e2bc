import Verif.Lemmas.Gather

/-! C83: gathering tensors of all processes. -/

namespace Verif.Gather
open Verif LogitLoss

variable {W n N C : ℕ}

/-- C83, the gradient: if every process computes a differentiable loss of the gathered tensors,
the gradient a process passes on for its tensor is the derivative of the sum of the losses of
all processes by that tensor. -/
theorem C83_backward (L : Fin W → (Fin W → Fin n → ℝ) → ℝ) (x : Fin W → Fin n → ℝ)
    (g : Fin W → Fin W → Fin n → ℝ) (hg : ∀ s, Grad (L s) (forward x s) (g s))
    (rank : Fin W) (i : Fin n) :
    HasDerivAt (fun t => ∑ s, L s (forward (Function.update x rank
        (Function.update (x rank) i t)) s))
      (backward g rank i) (x rank i) := by
  have hx : Function.update x rank (Function.update (x rank) i (x rank i)) = x := by
    rw [Function.update_eq_self, Function.update_eq_self]
  have h : ∀ s, HasDerivAt (fun t => L s (Function.update x rank
      (Function.update (x rank) i t))) (g s rank i) (x rank i) := by
    intro s
    have := grad_chain (f := fun t => Function.update x rank (Function.update (x rank) i t))
      (L := L s) (g := g s) (by rw [hx]; exact hg s) (hasDerivAt_rank x rank i)
    refine this.congr_deriv ?_
    rw [Finset.sum_eq_single rank]
    · rw [Finset.sum_eq_single i]
      · simp
      · intro j _ hj
        simp [Pi.single_apply, hj]
      · simp
    · intro r _ hr
      refine Finset.sum_eq_zero fun j _ => ?_
      simp [hr]
    · simp
  exact HasDerivAt.fun_sum fun s _ => h s

example (x : Fin 2 → Fin 1 → ℝ) : ∀ s : Fin 2, Grad (fun v => v 0 0 * v 1 0) (forward x s)
    (fun r _ => if r = 0 then x 1 0 else x 0 0) := fun _ => grad_example x

/-- C83, data parallel training: when the tensors are functions of a parameter and the
gradients of all processes are averaged, the result is the derivative of the mean of the
losses. -/
theorem C83_data_parallel (L : Fin W → (Fin W → Fin n → ℝ) → ℝ) (f : Fin W → ℝ → Fin n → ℝ)
    (f' : Fin W → Fin n → ℝ) (θ : ℝ) (hf : ∀ r, HasDerivAt (f r) (f' r) θ)
    (g : Fin W → Fin W → Fin n → ℝ)
    (hg : ∀ s, Grad (L s) (forward (fun r => f r θ) s) (g s)) :
    HasDerivAt (fun t => (∑ s, L s (forward (fun r => f r t) s)) / W)
      ((∑ r, ∑ i, backward g r i * f' r i) / W) θ := by
  have hF : HasDerivAt (fun t r => f r t) f' θ := hasDerivAt_pi.mpr hf
  have h := HasDerivAt.fun_sum (u := Finset.univ) fun s _ =>
    grad_chain (L := L s) (g := g s) (f := fun t r => f r t) (hg s) hF
  refine (h.div_const (W : ℝ)).congr_deriv ?_
  refine congrArg (fun y : ℝ => y / W) ?_
  rw [Finset.sum_comm]
  refine Finset.sum_congr rfl fun r _ => ?_
  rw [Finset.sum_comm]
  refine Finset.sum_congr rfl fun i _ => ?_
  rw [← Finset.sum_mul]
  rfl

/-- C83, one loss of the whole batch: when all processes compute the same loss of the gathered
tensors, the averaged gradient is the derivative of that loss, as if one process held all
tensors. -/
theorem C83_whole_batch (hW : 0 < W) (L : (Fin W → Fin n → ℝ) → ℝ) (f : Fin W → ℝ → Fin n → ℝ)
    (f' : Fin W → Fin n → ℝ) (θ : ℝ) (hf : ∀ r, HasDerivAt (f r) (f' r) θ)
    (g : Fin W → Fin n → ℝ) (hg : Grad L (fun r => f r θ) g) :
    HasDerivAt (fun t => L (fun r => f r t))
      ((∑ r, ∑ i, backward (fun _ => g) r i * f' r i) / W) θ := by
  have h := C83_data_parallel (fun _ => L) f f' θ hf (fun _ => g) (fun _ => hg)
  have hW' : (W : ℝ) ≠ 0 := Nat.cast_ne_zero.mpr (by omega)
  have e : (fun t => (∑ s : Fin W, L (forward (fun r => f r t) s)) / (W : ℝ)) =
      fun t => L (fun r => f r t) := by
    funext t
    have : ∀ s : Fin W, L (forward (fun r => f r t) s) = L (fun r => f r t) := fun _ => rfl
    rw [Finset.sum_congr rfl fun s _ => this s, Finset.sum_const, Finset.card_univ,
      Fintype.card_fin, nsmul_eq_mul]
    field_simp
  rw [e] at h
  exact h

/-- Two processes with parameter `t` and `3 t`, and the product of both as loss: derivative
`6 t`, here at `t = 5`. -/
example : HasDerivAt (fun t : ℝ => t * (3 * t)) 30 5 := by
  have h := C83_whole_batch (W := 2) (n := 1) (by omega) (fun v => v 0 0 * v 1 0)
    (fun r t _ => if r = 0 then t else 3 * t) (fun r _ => if r = 0 then 1 else 3) 5
    (fun r => by
      rw [hasDerivAt_pi]
      intro i
      by_cases hr : r = 0
      · simpa [hr] using hasDerivAt_id' (5 : ℝ)
      · simpa [hr] using (hasDerivAt_id' (5 : ℝ)).const_mul 3)
    _ (grad_example _)
  refine (h.congr_deriv ?_)
  simp [backward, allReduce, Fin.sum_univ_two]
  norm_num

/-- C83, class balance: with several processes the loss is that of one process with the samples
of all processes, in any order; with one process, or without gathering, it is the loss of its own
samples. -/
theorem C83_entropy (weight : ℝ) (x : Fin W → Fin N → Fin C → ℝ) (rank : Fin W) :
    (1 < W → ∀ (e : Fin (W * N) ≃ Fin W × Fin N),
      entropyRank weight true x rank =
        entropyForward weight (fun k => x (e k).1 (e k).2)) ∧
    (W = 1 → entropyRank weight true x rank = entropyForward weight (x rank)) ∧
    entropyRank weight false x rank = entropyForward weight (x rank) := by
  refine ⟨?_, ?_, ?_⟩
  · intro hW e
    unfold entropyRank
    rw [if_pos ⟨rfl, hW⟩]
    show entropyForward weight (cat x) = _
    rw [entropy_cat]
    unfold entropyForward
    dsimp only
    refine congrArg (fun y : ℝ => weight * y) (Finset.sum_congr rfl fun c _ => ?_)
    have : ∑ k, softmax (x (e k).1 (e k).2) c = ∑ r, ∑ m, softmax (x r m) c := by
      rw [← Fintype.sum_prod_type' (f := fun r m => softmax (x r m) c)]
      exact Fintype.sum_equiv e _ _ (fun k => rfl)
    rw [this, Nat.cast_mul]
  · intro hW
    unfold entropyRank
    rw [if_neg]
    rintro ⟨_, h⟩
    omega
  · unfold entropyRank
    rw [if_neg]
    rintro ⟨h, _⟩
    cases h

/-- C83, gathering matters: the loss of all samples is at most the mean of the losses of the
processes on their own samples (balance over all samples is easier than balance in each
process). -/
theorem C83_entropy_le {weight : ℝ} (hw : 0 ≤ weight) (x : Fin W → Fin N → Fin C → ℝ)
    (rank : Fin W) :
    entropyRank weight true x rank ≤ (∑ r, entropyRank weight false x r) / W := by
  have h2 : ∀ r, entropyRank weight false x r = entropyForward weight (x r) :=
    fun r => (C83_entropy weight x r).2.2
  rw [Finset.sum_congr rfl fun r _ => h2 r]
  have hpos : 0 < W := rank.pos
  have hWr : (0 : ℝ) < W := Nat.cast_pos.mpr hpos
  rcases (show W = 1 ∨ 1 < W by omega) with h1 | h1
  · rw [(C83_entropy weight x rank).2.1 h1]
    subst h1
    rw [Fin.sum_univ_one, Nat.cast_one, div_one, Subsingleton.elim rank 0]
  · unfold entropyRank
    rw [if_pos ⟨rfl, h1⟩]
    show entropyForward weight (cat x) ≤ _
    rw [entropy_cat]
    unfold entropyForward
    dsimp only
    rw [← Finset.mul_sum, mul_div_assoc]
    refine mul_le_mul_of_nonneg_left ?_ hw
    rw [Finset.sum_comm, Finset.sum_div]
    refine Finset.sum_le_sum fun c _ => ?_
    set p : Fin W → ℝ := fun r => (∑ m, softmax (x r m) c) / N with hp
    have hp0 : ∀ r, 0 ≤ p r := fun r =>
      div_nonneg (Finset.sum_nonneg fun m _ => softmax_nonneg _ _) (Nat.cast_nonneg _)
    have e : (∑ r, ∑ m, softmax (x r m) c) / ((W : ℝ) * N) = ∑ r, (1 / (W : ℝ)) • p r := by
      simp only [smul_eq_mul]
      rw [← Finset.mul_sum, hp, ← Finset.sum_div]
      rw [div_mul_div_comm, one_mul]
    rw [e]
    have hJ := Real.convexOn_mul_log.map_sum_le (t := Finset.univ)
      (w := fun _ : Fin W => 1 / (W : ℝ)) (p := p)
      (fun _ _ => by positivity)
      (by rw [Finset.sum_const, Finset.card_univ, Fintype.card_fin, nsmul_eq_mul]; field_simp)
      (fun r _ => hp0 r)
    have hL : 0 < Real.log 10 := Real.log_pos (by norm_num)
    unfold Real.logb
    rw [← mul_div_assoc]
    refine le_trans (div_le_div_of_nonneg_right hJ hL.le) (le_of_eq ?_)
    simp only [smul_eq_mul]
    rw [← Finset.mul_sum]
    have : ∀ r, p r * (Real.log (p r) / Real.log 10) = p r * Real.log (p r) / Real.log 10 :=
      fun r => by rw [mul_div_assoc]
    rw [Finset.sum_congr rfl fun r _ => this r, ← Finset.sum_div]
    field_simp

end Verif.Gather
