import Verif.Model.DiffMix
import Mathlib.Tactic.FinCases
import Verif.Lemmas.DsnasArch
import Mathlib.Tactic

/-! Helper lemmas for `Verif/Props/DiffMix.lean`. -/

namespace Verif.DiffMix
open Verif DsnasArch

variable {n : ℕ} {V : Type} [AddCommGroup V] [Module ℝ V]

theorem mix_pos (p : Fin n → ℝ) (hp : ∀ i, 0 < p i) (out : Fin n → V) : mix p out = ∑ i, p i • out i := by
  rw [mix, Finset.filter_true_of_mem fun i _ => hp i]

theorem soft_sum (a : Fin n → ℝ) (k : Fin n) : ∑ i, softmax a i = 1 := by
  simp only [softmax]
  rw [← Finset.sum_div, div_self (expSum_pos k a).ne']

theorem soft_order (a : Fin n → ℝ) (i j : Fin n) : softmax a i ≤ softmax a j ↔ a i ≤ a j := by
  rw [softmax, softmax, div_le_div_iff_of_pos_right (expSum_pos i a), Real.exp_le_exp]

theorem soft_shift (a : Fin n → ℝ) (c : ℝ) (i : Fin n) : softmax (fun i => a i + c) i = softmax a i := by
  simp only [softmax, Real.exp_add, ← Finset.sum_mul]
  rw [mul_div_mul_right _ _ (Real.exp_pos c).ne']

theorem soft_margin (a : Fin n → ℝ) (k : Fin n) (m : ℝ) (h : ∀ i, i ≠ k → a i + m ≤ a k) :
    1 - softmax a k ≤ ((n : ℝ) - 1) * Real.exp (-m) := by
  have h1 : ∑ i ∈ Finset.univ.erase k, softmax a i = 1 - softmax a k := by
    rw [← soft_sum a k, ← Finset.add_sum_erase _ _ (Finset.mem_univ k)]; ring
  have h2 : ∀ i ∈ Finset.univ.erase k, softmax a i ≤ Real.exp (-m) := by
    intro i hi
    have hik := h i (Finset.ne_of_mem_erase hi)
    rw [softmax, div_le_iff₀ (expSum_pos k a)]
    have h3 : Real.exp (a k) ≤ ∑ j, Real.exp (a j) :=
      Finset.single_le_sum (f := fun j => Real.exp (a j)) (fun j _ => (Real.exp_pos _).le) (Finset.mem_univ k)
    calc Real.exp (a i) ≤ Real.exp (-m + a k) := Real.exp_le_exp.2 (by linarith)
      _ = Real.exp (-m) * Real.exp (a k) := Real.exp_add _ _
      _ ≤ _ := mul_le_mul_of_nonneg_left h3 (Real.exp_pos _).le
  have h4 := Finset.sum_le_card_nsmul _ _ _ h2
  rw [h1, nsmul_eq_mul, Finset.card_erase_of_mem (Finset.mem_univ k), Finset.card_univ, Fintype.card_fin] at h4
  have : ((n - 1 : ℕ) : ℝ) = (n : ℝ) - 1 := by
    have := k.pos
    push_cast [Nat.cast_sub (by omega : 1 ≤ n)]
    ring
  rwa [this] at h4

theorem gumbel_update (tau : ℝ) (noise a : Fin n → ℝ) (j : Fin n) (x : ℝ) :
    (fun i => (Function.update a j x i + noise i) / tau) =
      Function.update (fun i => (a i + noise i) / tau) j ((x + noise j) / tau) := by
  funext i
  by_cases h : i = j
  · subst h; simp
  · simp [Function.update_of_ne h]

theorem gumbel_deriv (tau : ℝ) (noise a : Fin n → ℝ) (j k : Fin n) :
    HasDerivAt (fun x => gumbelSoft tau noise (Function.update a j x) k) (softDeriv tau (gumbelSoft tau noise a) k j) (a j) := by
  have h1 := softmax_deriv (fun i => (a i + noise i) / tau) j k
  have h2 : HasDerivAt (fun x => (x + noise j) / tau) (1 / tau) (a j) :=
    ((hasDerivAt_id (a j)).add_const (noise j)).div_const tau
  have h3 := HasDerivAt.comp (a j) h1 h2
  have e : (fun x => gumbelSoft tau noise (Function.update a j x) k) =
      (fun x => softmax (Function.update (fun i => (a i + noise i) / tau) j x) k) ∘ fun x => (x + noise j) / tau := by
    funext x
    simp only [gumbelSoft, gumbel_update, Function.comp]
  rw [e]
  have e2 : softDeriv tau (gumbelSoft tau noise a) k j = softmax (fun i => (a i + noise i) / tau) k *
      ((if k = j then 1 else 0) - softmax (fun i => (a i + noise i) / tau) j) * (1 / tau) := by
    unfold softDeriv gumbelSoft
    ring
  rw [e2]
  exact h3

theorem mix_deriv (tau : ℝ) (noise a : Fin n → ℝ) (up : V →ₗ[ℝ] ℝ) (out : Fin n → V) (j : Fin n) :
    HasDerivAt (fun x => up (mix (gumbelSoft tau noise (Function.update a j x)) out))
      (∑ i, softDeriv tau (gumbelSoft tau noise a) i j * up (out i)) (a j) := by
  have e : (fun x => up (mix (gumbelSoft tau noise (Function.update a j x)) out)) =
      fun x => ∑ i, gumbelSoft tau noise (Function.update a j x) i * up (out i) := by
    funext x
    rw [mix_pos (gumbelSoft tau noise (Function.update a j x)) (fun i => softmax_pos i _), map_sum]
    exact Finset.sum_congr rfl fun i _ => by rw [map_smul, smul_eq_mul]
  rw [e]
  exact HasDerivAt.fun_sum fun i _ => (gumbel_deriv tau noise a j i).mul_const _

theorem grad_eq (tau : ℝ) (p : Fin n → ℝ) (up : V →ₗ[ℝ] ℝ) (out : Fin n → V) (j : Fin n) :
    ∑ i, softDeriv tau p i j * up (out i) = p j * (up (out j) - up (∑ i, p i • out i)) / tau := by
  have h1 : ∀ i, softDeriv tau p i j * up (out i) =
      (if i = j then p i * up (out i) / tau else 0) - p j / tau * (p i * up (out i)) := by
    intro i
    by_cases h : i = j
    · simp only [softDeriv, if_pos h]; ring
    · simp only [softDeriv, if_neg h]; ring
  have h2 : up (∑ i, p i • out i) = ∑ i, p i * up (out i) := by
    rw [map_sum]
    exact Finset.sum_congr rfl fun i _ => by rw [map_smul, smul_eq_mul]
  rw [Finset.sum_congr rfl fun i _ => h1 i, Finset.sum_sub_distrib, ← Finset.mul_sum, h2]
  simp
  ring

theorem plain_gumbel (a : Fin n → ℝ) : probs a = gumbelSoft 1 (fun _ => 0) a := by
  simp [probs, gumbelSoft]

theorem hard_eq (tau : ℝ) (noise a : Fin n → ℝ) (k i : Fin n) : gumbelHard tau noise a k i = if i = k then 1 else 0 := by
  simp [gumbelHard]

section
variable {n : ℕ} {V : Type} [AddCommGroup V] [Module ℝ V]

theorem step_eq (a : Fin n → ℝ) (s : Step n V) (j : Fin n) :
    archStep a s j = a j - s.rate * (probs a j * (s.up (s.out j) - s.up (mix (probs a) s.out))) := by
  have hp : ∀ i, 0 < probs a i := fun i => softmax_pos i a
  rw [archStep, archGrad, Finset.filter_true_of_mem fun i _ => hp i, grad_eq, div_one, mix_pos (probs a) hp]

theorem up_mix (a : Fin n → ℝ) (s : Step n V) : s.up (mix (probs a) s.out) = ∑ i, probs a i * s.up (s.out i) := by
  rw [mix_pos (probs a) fun i => softmax_pos i a, map_sum]
  simp

theorem step_lead (a : Fin n → ℝ) (s : Step n V) (b : Fin n) (hr : 0 ≤ s.rate) (hb : ∀ i, s.up (s.out b) ≤ s.up (s.out i))
    (ha : ∀ i, a i ≤ a b) (i : Fin n) : a b - a i ≤ archStep a s b - archStep a s i := by
  rw [step_eq, step_eq]
  have hm : s.up (s.out b) ≤ s.up (mix (probs a) s.out) := by
    rw [up_mix]
    have h1 : ∑ i, probs a i = 1 := soft_sum a b
    calc s.up (s.out b) = ∑ i, probs a i * s.up (s.out b) := by rw [← Finset.sum_mul, h1, one_mul]
      _ ≤ _ := Finset.sum_le_sum fun i _ => mul_le_mul_of_nonneg_left (hb i) (softmax_pos i a).le
  generalize s.up (mix (probs a) s.out) = u at hm ⊢
  have hp : probs a i ≤ probs a b := (soft_order a i b).2 (ha i)
  have hi : 0 < probs a i := softmax_pos i a
  have : 0 ≤ s.rate * (probs a i * (s.up (s.out i) - u) - probs a b * (s.up (s.out b) - u)) := by
    refine mul_nonneg hr ?_
    have h2 := mul_nonneg hi.le (sub_nonneg.2 (hb i))
    have h3 := mul_nonneg (sub_nonneg.2 hp) (sub_nonneg.2 hm)
    nlinarith
  nlinarith

theorem sum_two (f : Fin 2 → ℝ) {b o : Fin 2} (h : b ≠ o) : ∑ i, f i = f b + f o := by
  rw [Fin.sum_univ_two]
  fin_cases b <;> fin_cases o <;> simp_all [add_comm]

theorem step_two (a : Fin 2 → ℝ) (s : Step 2 V) {b o : Fin 2} (h : b ≠ o) :
    archStep a s b - archStep a s o =
      a b - a o + 2 * s.rate * (probs a b * probs a o) * (s.up (s.out o) - s.up (s.out b)) := by
  rw [step_eq, step_eq, up_mix, sum_two _ h]
  have h1 : probs a b + probs a o = 1 := by rw [← sum_two _ h]; exact soft_sum a b
  have h2 : probs a o = 1 - probs a b := by linarith
  rw [h2]
  ring

theorem soft_ratio (a : Fin n → ℝ) (i j : Fin n) : probs a i = Real.exp (a i - a j) * probs a j := by
  unfold probs softmax
  rw [Real.exp_sub]
  have := Real.exp_ne_zero (a j)
  field_simp

theorem two_product (a : Fin 2 → ℝ) {b o : Fin 2} (h : b ≠ o) (d : ℝ) (hd : d ≤ a b - a o) (h0 : a b ≤ a o) :
    Real.exp d / 4 ≤ probs a b * probs a o := by
  have h1 : probs a b + probs a o = 1 := by rw [← sum_two _ h]; exact soft_sum a b
  have h2 : probs a b ≤ probs a o := (soft_order a b o).2 h0
  have h3 : 1 / 2 ≤ probs a o := by linarith
  have h4 := soft_ratio a b o
  have h5 : Real.exp d ≤ Real.exp (a b - a o) := Real.exp_le_exp.2 hd
  have h6 := Real.exp_pos d
  rw [h4]
  have : Real.exp d * (1 / 2) * (1 / 2) ≤ Real.exp (a b - a o) * probs a o * probs a o := by gcongr
  linarith

end

end Verif.DiffMix
