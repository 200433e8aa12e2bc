import Verif.Spec.FeatureLoss

/-! Helper lemmas for `Verif/Props/FeatureLoss.lean`. -/

namespace Verif.FeatureLoss
open Verif

theorem sq_nonneg' {N D : ℕ} (s t : Feat N D) : 0 ≤ ∑ n, ∑ d, (s n d - t n d) ^ 2 :=
  Finset.sum_nonneg fun _ _ => Finset.sum_nonneg fun _ _ => sq_nonneg _

theorem sum2_zero {N D : ℕ} (f : Fin N → Fin D → ℝ) (h : ∀ n d, 0 ≤ f n d) : ∑ n, ∑ d, f n d = 0 ↔ ∀ n d, f n d = 0 := by
  rw [Finset.sum_eq_zero_iff_of_nonneg fun n _ => Finset.sum_nonneg fun d _ => h n d]
  refine ⟨fun g n d => ?_, fun g n _ => Finset.sum_eq_zero fun d _ => g n d⟩
  have := g n (Finset.mem_univ _)
  rw [Finset.sum_eq_zero_iff_of_nonneg fun d _ => h n d] at this
  exact this d (Finset.mem_univ _)

theorem sqDist_zero {N D : ℕ} (s t : Feat N D) : ∑ n, ∑ d, (s n d - t n d) ^ 2 = 0 ↔ s = t := by
  rw [sum2_zero _ fun _ _ => sq_nonneg _]
  refine ⟨fun h => funext fun n => funext fun d => ?_, fun h n d => by rw [h]; ring⟩
  have := pow_eq_zero_iff (two_ne_zero) |>.1 (h n d)
  linarith

theorem absDist_zero {N D : ℕ} (s t : Feat N D) : ∑ n, ∑ d, |s n d - t n d| = 0 ↔ s = t := by
  rw [sum2_zero _ fun _ _ => abs_nonneg _]
  refine ⟨fun h => funext fun n => funext fun d => ?_, fun h n d => by rw [h]; simp⟩
  exact sub_eq_zero.1 (abs_eq_zero.1 (h n d))

theorem norm_nonneg' {D : ℕ} (x : Fin D → ℝ) : 0 ≤ norm x := Real.sqrt_nonneg _

theorem norm_sq {D : ℕ} (x : Fin D → ℝ) : norm x ^ 2 = ∑ d, x d ^ 2 :=
  Real.sq_sqrt (Finset.sum_nonneg fun _ _ => sq_nonneg _)

theorem norm_eq_zero {D : ℕ} (x : Fin D → ℝ) : norm x = 0 ↔ ∀ d, x d = 0 := by
  rw [norm, Real.sqrt_eq_zero (Finset.sum_nonneg fun _ _ => sq_nonneg _),
    Finset.sum_eq_zero_iff_of_nonneg fun _ _ => sq_nonneg _]
  simp

theorem norm_smul {D : ℕ} {a : ℝ} (ha : 0 ≤ a) (x : Fin D → ℝ) : norm (fun d => a * x d) = a * norm x := by
  unfold norm
  have : ∑ d, (a * x d) ^ 2 = a ^ 2 * ∑ d, x d ^ 2 := by
    rw [Finset.mul_sum]; exact Finset.sum_congr rfl fun d _ => by ring
  rw [this, Real.sqrt_mul (sq_nonneg a), Real.sqrt_sq ha]

theorem aligned_iff {D : ℕ} {x y : Fin D → ℝ} (hx : 0 < norm x) (hy : 0 < norm y) :
    (∀ d, x d / norm x = y d / norm y) ↔ Aligned x y := by
  constructor
  · intro h
    refine ⟨norm x / norm y, div_pos hx hy, fun d => ?_⟩
    have := h d
    field_simp at this ⊢
    linarith
  · rintro ⟨a, ha, h⟩ d
    have : x = fun d => a * y d := funext h
    rw [this, norm_smul ha.le]
    field_simp

theorem unit_of_ge {D : ℕ} {x : Fin D → ℝ} (h : 1 / 10 ^ 12 ≤ norm x) (d : Fin D) : unit x d = x d / norm x := by
  rw [unit, max_eq_left h]

theorem unit_sq_le {D : ℕ} (x : Fin D → ℝ) : ∑ d, unit x d ^ 2 ≤ 1 := by
  have hm : 0 < max (norm x) (1 / 10 ^ 12) := lt_of_lt_of_le (by positivity) (le_max_right _ _)
  have : ∑ d, unit x d ^ 2 = norm x ^ 2 / max (norm x) (1 / 10 ^ 12) ^ 2 := by
    rw [norm_sq, Finset.sum_div]; exact Finset.sum_congr rfl fun d _ => by rw [unit, div_pow]
  rw [this, div_le_one (by positivity)]
  exact pow_le_pow_left₀ (norm_nonneg' x) (le_max_left _ _) 2

theorem l2_plain {N D : ℕ} (k : L2) (h : k.normalize = false) (s t : Feat N D) :
    l2Forward k s t = some (k.weight * if k.dist then Real.sqrt (sqDist s t)
      else if k.divElement then sqDist s t / (N * D) else sqDist s t / N) := by
  unfold l2Forward
  simp only [h, Bool.false_eq_true, if_false, Option.map_some]
  rfl

theorem l2_norm {N D : ℕ} (k : L2) (h : k.normalize = true) (s t : Feat N D) (hs : ∀ n, norm (s n) ≠ 0) (ht : ∀ n, norm (t n) ≠ 0) :
    l2Forward k s t = l2Forward { k with normalize := false } (fun n d => s n d / norm (s n) * k.mult) (fun n d => t n d / norm (t n) * k.mult) := by
  have hs' : ¬ ∃ n, norm (s n) = 0 := fun ⟨n, e⟩ => hs n e
  have ht' : ¬ ∃ n, norm (t n) = 0 := fun ⟨n, e⟩ => ht n e
  rw [l2_plain { k with normalize := false } rfl]
  unfold l2Forward normalizeFeature
  simp only [h, if_true, if_neg hs', if_neg ht', Option.map_some]
  rfl

theorem attention_nonneg {N C P : ℕ} (x : Fin N → Fin C → Fin P → ℝ) (n : Fin N) (p : Fin P) : 0 ≤ attention x n p := by
  unfold attention unit
  have hm : 0 < max (norm fun p => (∑ c, x n c p ^ 2) / C) (1 / 10 ^ 12) := lt_of_lt_of_le (by positivity) (le_max_right _ _)
  exact div_nonneg (div_nonneg (Finset.sum_nonneg fun _ _ => sq_nonneg _) (Nat.cast_nonneg _)) hm.le

theorem alternative_eq (m s t : ℝ) : alternative m s t = if t ≤ 0 then max (s + m) 0 ^ 2 else max (m - s) 0 ^ 2 := by
  unfold alternative
  by_cases ht : t ≤ 0
  · have ht' : ¬ t > 0 := not_lt.2 ht
    rw [if_pos ht, if_neg (c := s ≤ m ∧ t > 0) (fun h => ht' h.2)]
    by_cases hs : s > -m
    · rw [if_pos ⟨hs, ht⟩, max_eq_left (by linarith), mul_one, mul_zero, add_zero, abs_of_nonneg (sq_nonneg _)]
    · rw [if_neg fun h => hs h.1, max_eq_right (by linarith)]; simp
  · have ht' : t > 0 := not_le.1 ht
    rw [if_neg ht, if_neg (c := s > -m ∧ t ≤ 0) (fun h => ht h.2)]
    by_cases hs : s ≤ m
    · rw [if_pos ⟨hs, ht'⟩, max_eq_left (by linarith), mul_one, mul_zero, zero_add, abs_of_nonneg (sq_nonneg _)]; ring
    · rw [if_neg fun h => hs h.1, max_eq_right (by linarith)]; simp

end Verif.FeatureLoss
