import Verif.Spec.Compensate
import Mathlib.LinearAlgebra.Matrix.NonsingularInverse
import Mathlib.Tactic

/-! Lemmas about triangular factors and quadratic errors. -/

namespace Verif.Compensate
open Finset Matrix

/-- The matrix of a function. -/
def mat (n : Nat) (u : Nat → Nat → ℚ) : Matrix (Fin n) (Fin n) ℚ := Matrix.of fun i j => u i j

theorem mat_factor {n : Nat} {h u : Nat → Nat → ℚ} (hf : IsFactor n h u) : mat n h * ((mat n u)ᵀ * mat n u) = 1 := by
  ext i j
  have := hf.2.2 i i.2 j j.2
  rw [Finset.sum_range] at this
  simp only [mat, Matrix.mul_apply, Matrix.of_apply, Matrix.transpose_apply, Matrix.one_apply]
  simp only [Finset.sum_range, Fin.val_inj] at this
  exact this

theorem quadErr_mat (n : Nat) (h : Nat → Nat → ℚ) (d : Nat → ℚ) :
    quadErr n h d = (fun i : Fin n => d i) ⬝ᵥ (mat n h *ᵥ fun i : Fin n => d i) := by
  unfold quadErr
  simp only [Finset.sum_range, dotProduct, mulVec, mat, Matrix.of_apply, Finset.mul_sum, mul_assoc]

/-- The error of a combination of the factor's rows. -/
theorem quadErr_comb {n : Nat} {h u : Nat → Nat → ℚ} (hf : IsFactor n h u) (f d : Nat → ℚ)
    (hd : ∀ j < n, d j = ∑ t ∈ range n, f t * u t j) : quadErr n h d = ∑ t ∈ range n, f t ^ 2 := by
  have hm := mat_factor hf
  rw [← Matrix.mul_assoc, _root_.mul_eq_one_comm] at hm
  have e : (fun i : Fin n => d i) = (fun i : Fin n => f i) ᵥ* mat n u := by
    funext j
    rw [hd j j.2]
    simp only [Finset.sum_range, vecMul, dotProduct, mat, Matrix.of_apply]
  rw [quadErr_mat, e, ← Matrix.mulVec_transpose, Matrix.mulVec_mulVec, Matrix.mulVec_transpose, ← Matrix.dotProduct_mulVec,
    Matrix.mulVec_mulVec, hm, Matrix.one_mulVec, Finset.sum_range]
  simp only [dotProduct, pow_two]

/-- Every vector is a combination of the factor's rows. -/
theorem comb_exists {n : Nat} {h u : Nat → Nat → ℚ} (hf : IsFactor n h u) (d : Nat → ℚ) :
    ∃ f : Nat → ℚ, ∀ j < n, d j = ∑ t ∈ range n, f t * u t j := by
  have hm := mat_factor hf
  let v : Fin n → ℚ := (fun i : Fin n => d i) ᵥ* (mat n h * (mat n u)ᵀ)
  have hv : v ᵥ* mat n u = fun i : Fin n => d i := by
    show ((fun i : Fin n => d i) ᵥ* (mat n h * (mat n u)ᵀ)) ᵥ* mat n u = _
    rw [Matrix.vecMul_vecMul, Matrix.mul_assoc, hm, Matrix.vecMul_one]
  refine ⟨fun t => if ht : t < n then v ⟨t, ht⟩ else 0, fun j hj => ?_⟩
  have := congrFun hv ⟨j, hj⟩
  simp only [vecMul, dotProduct, mat, Matrix.of_apply] at this
  rw [← this, Finset.sum_range]
  apply Finset.sum_congr rfl
  intro t _
  simp

/-- Terms of a triangular combination beyond the column vanish. -/
theorem comb_cut {n : Nat} {h u : Nat → Nat → ℚ} (hf : IsFactor n h u) (f : Nat → ℚ) (j : Nat) (hj : j < n) :
    ∑ t ∈ range n, f t * u t j = ∑ t ∈ range (j + 1), f t * u t j := by
  symm
  apply Finset.sum_subset
  · intro t ht
    rw [Finset.mem_range] at ht ⊢
    omega
  · intro t ht hn
    rw [Finset.mem_range] at ht hn
    rw [hf.1 t ht j (by omega), mul_zero]

/-- Combinations that agree in the first columns have the same first coefficients. -/
theorem comb_unique {n : Nat} {h u : Nat → Nat → ℚ} (hf : IsFactor n h u) (f g : Nat → ℚ) (k : Nat) (hk : k ≤ n)
    (he : ∀ j < k, ∑ t ∈ range n, f t * u t j = ∑ t ∈ range n, g t * u t j) : ∀ j < k, f j = g j := by
  intro j
  induction j using Nat.strong_induction_on with
  | _ j ih =>
    intro hj
    have := he j hj
    rw [comb_cut hf f j (by omega), comb_cut hf g j (by omega), Finset.sum_range_succ, Finset.sum_range_succ] at this
    have hs : ∑ t ∈ range j, f t * u t j = ∑ t ∈ range j, g t * u t j := by
      apply Finset.sum_congr rfl
      intro t ht
      rw [Finset.mem_range] at ht
      rw [ih t ht (by omega)]
    rw [hs, add_right_inj] at this
    exact mul_right_cancel₀ (hf.2.1 j (by omega)) this

theorem list_sum_range (f : Nat → ℚ) : ∀ n, ((List.range n).map f).sum = ∑ t ∈ range n, f t
  | 0 => by simp
  | n + 1 => by
    rw [List.range_succ, List.map_append, List.sum_append, Finset.sum_range_succ, list_sum_range f n]
    simp

/-- Removing the error of one column after the other from the later ones leaves the least possible
error among all rows that agree in the columns treated. -/
theorem compensate {n : Nat} {h u : Nat → Nat → ℚ} (hf : IsFactor n h u) (w q : Nat → ℚ) (x : Nat → Nat → ℚ) (e : Nat → ℚ)
    (h0 : ∀ j, x 0 j = w j) (hs : ∀ k j, x (k + 1) j = x k j - e k * u k j) (he : ∀ k < n, e k * u k k = x k k - q k)
    (k : Nat) (hk : k ≤ n) :
    quadErr n h (fun j => w j - if j < k then q j else x k j) = ∑ t ∈ range k, e t ^ 2 ∧
    ∀ v : Nat → ℚ, (∀ j < k, v j = q j) → ∑ t ∈ range k, e t ^ 2 ≤ quadErr n h (fun j => w j - v j) := by
  have hx : ∀ k j, x k j = w j - ∑ t ∈ range k, e t * u t j := by
    intro k
    induction k with
    | zero => intro j; simp [h0]
    | succ k ih => intro j; rw [hs, ih, Finset.sum_range_succ]; ring
  have hq : ∀ j < k, w j - q j = ∑ t ∈ range n, e t * u t j := by
    intro j hj
    rw [comb_cut hf e j (by omega), Finset.sum_range_succ, he j (by omega), hx j j]
    ring
  constructor
  · have : quadErr n h (fun j => w j - if j < k then q j else x k j) = ∑ t ∈ range n, (if t < k then e t else 0) ^ 2 := by
      apply quadErr_comb hf
      intro j hj
      have hsplit : ∑ t ∈ range n, (if t < k then e t else 0) * u t j = ∑ t ∈ range k, e t * u t j := by
        symm
        have h1 : ∑ t ∈ range k, e t * u t j = ∑ t ∈ range k, (if t < k then e t else 0) * u t j := by
          apply Finset.sum_congr rfl
          intro t ht
          rw [Finset.mem_range] at ht
          rw [if_pos ht]
        rw [h1]
        apply Finset.sum_subset
        · intro t ht
          rw [Finset.mem_range] at ht ⊢
          omega
        · intro t _ ht
          rw [Finset.mem_range] at ht
          rw [if_neg ht, zero_mul]
      rw [hsplit]
      by_cases hjk : j < k
      · rw [if_pos hjk, hq j hjk, comb_cut hf e j hj]
        apply Finset.sum_subset
        · intro t ht
          rw [Finset.mem_range] at ht ⊢
          omega
        · intro t ht hn
          rw [Finset.mem_range] at ht hn
          rw [hf.1 t (by omega) j (by omega), mul_zero]
      · rw [if_neg hjk, hx k j]
        ring
    rw [this]
    symm
    have h1 : ∑ t ∈ range k, e t ^ 2 = ∑ t ∈ range k, (if t < k then e t else 0) ^ 2 := by
      apply Finset.sum_congr rfl
      intro t ht
      rw [Finset.mem_range] at ht
      rw [if_pos ht]
    rw [h1]
    apply Finset.sum_subset
    · intro t ht
      rw [Finset.mem_range] at ht ⊢
      omega
    · intro t _ ht
      rw [Finset.mem_range] at ht
      rw [if_neg ht]
      ring
  · intro v hv
    obtain ⟨f, hfv⟩ := comb_exists hf (fun j => w j - v j)
    rw [quadErr_comb hf f _ hfv]
    have hfe : ∀ j < k, e j = f j := by
      apply comb_unique hf e f k hk
      intro j hj
      rw [← hq j hj, ← hfv j (by omega), hv j hj]
    have h1 : ∑ t ∈ range k, e t ^ 2 = ∑ t ∈ range k, f t ^ 2 := by
      apply Finset.sum_congr rfl
      intro t ht
      rw [Finset.mem_range] at ht
      rw [hfe t ht]
    rw [h1]
    apply Finset.sum_le_sum_of_subset_of_nonneg
    · intro t ht
      rw [Finset.mem_range] at ht ⊢
      omega
    · intro t _ _
      positivity

end Verif.Compensate
