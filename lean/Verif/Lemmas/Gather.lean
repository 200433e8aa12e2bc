import Verif.Spec.Gather

/-! Helper lemmas for `Verif/Props/Gather.lean`. -/

namespace Verif.Gather
open Verif LogitLoss

variable {W n N C : ℕ}

theorem apply_sum (D : (Fin W → Fin n → ℝ) →L[ℝ] ℝ) (v : Fin W → Fin n → ℝ) :
    D v = ∑ r, ∑ i, D (Pi.single r (Pi.single i 1)) * v r i := by
  have e : v = ∑ r, ∑ i, v r i • (Pi.single r (Pi.single i 1) : Fin W → Fin n → ℝ) := by
    funext r i
    simp only [Finset.sum_apply, Pi.smul_apply, smul_eq_mul]
    rw [Finset.sum_eq_single r]
    · rw [Finset.sum_eq_single i]
      · simp
      · intro j _ hj
        simp [Pi.single_apply, hj.symm]
      · simp
    · intro s _ hs
      refine Finset.sum_eq_zero fun j _ => ?_
      simp [Pi.single_apply, hs.symm]
    · simp
  conv_lhs => rw [e]
  rw [map_sum]
  refine Finset.sum_congr rfl fun r _ => ?_
  rw [map_sum]
  refine Finset.sum_congr rfl fun i _ => ?_
  rw [map_smul, smul_eq_mul, mul_comm]

/-- The chain rule for a loss of the tensors of all processes. -/
theorem grad_chain {L : (Fin W → Fin n → ℝ) → ℝ} {f : ℝ → Fin W → Fin n → ℝ}
    {f' : Fin W → Fin n → ℝ} {θ : ℝ} {g : Fin W → Fin n → ℝ} (hg : Grad L (f θ) g)
    (hf : HasDerivAt f f' θ) :
    HasDerivAt (fun t => L (f t)) (∑ r, ∑ i, g r i * f' r i) θ := by
  obtain ⟨D, hD, hgD⟩ := hg
  refine (hD.comp_hasDerivAt θ hf).congr_deriv ?_
  rw [apply_sum D f']
  simp only [hgD]

theorem hasDerivAt_rank (x : Fin W → Fin n → ℝ) (r : Fin W) (i : Fin n) :
    HasDerivAt (fun t => Function.update x r (Function.update (x r) i t))
      (Pi.single r (Pi.single i 1)) (x r i) := by
  rw [hasDerivAt_pi]
  intro s
  rw [hasDerivAt_pi]
  intro j
  by_cases hs : s = r
  · subst hs
    by_cases hj : j = i
    · subst hj
      simpa using hasDerivAt_id' (x s j)
    · simpa [Function.update_of_ne hj, Pi.single_apply, hj] using hasDerivAt_const (x s i) (x s j)
  · simpa [Function.update_of_ne hs, Pi.single_apply, hs] using hasDerivAt_const (x r i) (x s j)

/-- The product of two gathered numbers. -/
theorem grad_example (x : Fin 2 → Fin 1 → ℝ) :
    Grad (fun v => v 0 0 * v 1 0) x (fun r _ => if r = 0 then x 1 0 else x 0 0) := by
  have h : ∀ r : Fin 2, HasFDerivAt (fun v : Fin 2 → Fin 1 → ℝ => v r 0)
      ((ContinuousLinearMap.proj (R := ℝ) (φ := fun _ : Fin 1 => ℝ) 0).comp
        (ContinuousLinearMap.proj (R := ℝ) (φ := fun _ : Fin 2 => Fin 1 → ℝ) r)) x := by
    intro r
    exact ((ContinuousLinearMap.proj (R := ℝ) (φ := fun _ : Fin 1 => ℝ) 0).comp
        (ContinuousLinearMap.proj (R := ℝ) (φ := fun _ : Fin 2 => Fin 1 → ℝ) r)).hasFDerivAt
  refine ⟨_, (h 0).mul (h 1), ?_⟩
  intro r i
  have hi : i = 0 := Subsingleton.elim _ _
  subst hi
  rcases (show r = 0 ∨ r = 1 by omega) with rfl | rfl <;> simp

theorem sum_cat (x : Fin W → Fin N → ℝ) :
    ∑ k : Fin (W * N), x k.divNat k.modNat = ∑ r, ∑ m, x r m := by
  rw [← Fintype.sum_prod_type' (f := x)]
  exact Fintype.sum_equiv finProdFinEquiv.symm _ _ (fun k => rfl)

theorem entropy_cat (weight : ℝ) (x : Fin W → Fin N → Fin C → ℝ) :
    entropyForward weight (cat x) =
      weight * ∑ c, ((∑ r, ∑ m, softmax (x r m) c) / (W * N)) *
        Real.logb 10 ((∑ r, ∑ m, softmax (x r m) c) / (W * N)) := by
  unfold entropyForward cat
  dsimp only
  refine congrArg (fun y : ℝ => weight * y) (Finset.sum_congr rfl fun c _ => ?_)
  rw [sum_cat (fun r m => softmax (x r m) c), Nat.cast_mul]

theorem softmax_nonneg (z : Fin C → ℝ) (c : Fin C) : 0 ≤ softmax z c :=
  div_nonneg (Real.exp_pos _).le (Finset.sum_nonneg fun _ _ => (Real.exp_pos _).le)

end Verif.Gather
