import Verif.Lemmas.LogitLoss

/-! C61: distillation losses on class scores. -/

namespace Verif.LogitLoss
open Verif

/-! ### Lemmas -/

/-! ### C61 -/

/-- `KLDivergence` is the temperature-scaled Kullback-Leibler divergence of the student's
probabilities from the teacher's, summed over samples and positions, and divided by the number of
samples for `batchmean` and by the number of elements for `mean`. -/
theorem C61_kl_value {N C P : ℕ} [NeZero C] (k : Kl) (s t : Tensor N C P) (p q : Fin N → Fin P → Fin C → ℝ)
    (hp : ∀ n i, Probs (fun j => t n j i / k.tau) (p n i)) (hq : ∀ n i, Probs (fun j => s n j i / k.tau) (q n i)) :
    (k.red = .sum → klForward k s t = .scalar (k.weight * (k.tau ^ 2 * ∑ n, ∑ i, kl (p n i) (q n i)))) ∧
    (k.red = .batchmean → klForward k s t = .scalar (k.weight * (k.tau ^ 2 * ((∑ n, ∑ i, kl (p n i) (q n i)) / N)))) ∧
    (k.red = .mean → klForward k s t = .scalar (k.weight * (k.tau ^ 2 * ((∑ n, ∑ i, kl (p n i) (q n i)) / (N * C * P))))) ∧
    (k.red = .none → klForward k s t = .full fun n c i => k.weight * (k.tau ^ 2 * (p n i c * Real.log (p n i c / q n i c)))) := by
  have h := klForward_eq k s t hp hq
  refine ⟨fun e => ?_, fun e => ?_, fun e => ?_, fun e => ?_⟩ <;> rw [h, e] <;> simp only [Out.scale]
  rw [one_div_mul_eq_div]

example : Probs (fun _ : Fin 2 => (0 : ℝ)) (fun _ => 1 / 2) := by
  refine ⟨fun _ => by norm_num, by simp, fun _ _ => by simp⟩

/-- `KLDivergence` with a reduction is never negative, and zero exactly when the scores of student
and teacher differ by a constant at every position of every sample. -/
theorem C61_kl_nonneg {N C P : ℕ} [NeZero N] [NeZero C] [NeZero P] (k : Kl) (hr : k.red ≠ .none) (hτ : k.tau ≠ 0) (hw : 0 < k.weight)
    (s t : Tensor N C P) :
    ∃ x, klForward k s t = .scalar x ∧ 0 ≤ x ∧
      (x = 0 ↔ ∀ n i, Same (fun c => s n c i) (fun c => t n c i)) := by
  set p : Fin N → Fin P → Fin C → ℝ := fun n i => softmax fun j => t n j i / k.tau with hpd
  set q : Fin N → Fin P → Fin C → ℝ := fun n i => softmax fun j => s n j i / k.tau with hqd
  have hp : ∀ n i, Probs (fun j => t n j i / k.tau) (p n i) := fun n i => softmax_probs _
  have hq : ∀ n i, Probs (fun j => s n j i / k.tau) (q n i) := fun n i => softmax_probs _
  have h0 : ∀ n i, 0 ≤ kl (p n i) (q n i) := fun n i => (hp n i).kl_nonneg (hq n i)
  have hS0 : 0 ≤ ∑ n, ∑ i, kl (p n i) (q n i) := Finset.sum_nonneg fun n _ => Finset.sum_nonneg fun i _ => h0 n i
  have hS : (∑ n, ∑ i, kl (p n i) (q n i)) = 0 ↔ ∀ n i, Same (fun c => s n c i) (fun c => t n c i) := by
    rw [Finset.sum_eq_zero_iff_of_nonneg fun n _ => Finset.sum_nonneg fun i _ => h0 n i]
    refine ⟨fun h n i => ?_, fun h n _ => ?_⟩
    · have h1 := h n (Finset.mem_univ _)
      rw [Finset.sum_eq_zero_iff_of_nonneg fun i _ => h0 n i] at h1
      exact (same_div hτ _ _).1 (((hp n i).kl_zero (hq n i)).1 (h1 i (Finset.mem_univ _)))
    · exact Finset.sum_eq_zero fun i _ => ((hp n i).kl_zero (hq n i)).2 ((same_div hτ _ _).2 (h n i))
  have hN : (0 : ℝ) < N := Nat.cast_pos.2 (Nat.pos_of_ne_zero (NeZero.ne N))
  have hC : (0 : ℝ) < C := Nat.cast_pos.2 (Nat.pos_of_ne_zero (NeZero.ne C))
  have hP : (0 : ℝ) < P := Nat.cast_pos.2 (Nat.pos_of_ne_zero (NeZero.ne P))
  have hτ2 : 0 < k.tau ^ 2 := by positivity
  obtain ⟨v1, v2, v3, _⟩ := C61_kl_value k s t p q hp hq
  have key : ∀ d : ℝ, 0 < d → 0 ≤ k.weight * (k.tau ^ 2 * ((∑ n, ∑ i, kl (p n i) (q n i)) / d)) ∧
      (k.weight * (k.tau ^ 2 * ((∑ n, ∑ i, kl (p n i) (q n i)) / d)) = 0 ↔
        ∀ n i, Same (fun c => s n c i) (fun c => t n c i)) := by
    intro d hd
    refine ⟨by positivity, ?_⟩
    rw [← hS]
    simp [hw.ne', hτ, hd.ne']
  cases hk : k.red with
  | none => exact absurd hk hr
  | sum => exact ⟨_, v1 hk, by simpa using key 1 one_pos⟩
  | batchmean => exact ⟨_, v2 hk, key N hN⟩
  | mean => exact ⟨_, v3 hk, key (N * C * P) (by positivity)⟩

example : ∃ x, klForward (N := 1) (C := 2) (P := 1) ⟨4, .batchmean, 1⟩ (fun _ c _ => if c = 0 then 1 else 0) (fun _ _ _ => 0) =
    .scalar x ∧ 0 < x := by
  obtain ⟨x, h1, h2, h3⟩ := C61_kl_nonneg (N := 1) (C := 2) (P := 1) ⟨4, .batchmean, 1⟩ (by simp) (by norm_num) (by norm_num)
    (fun _ c _ => if c = 0 then 1 else 0) (fun _ _ _ => 0)
  refine ⟨x, h1, lt_of_le_of_ne h2 fun e => ?_⟩
  obtain ⟨a, ha⟩ := h3.1 e.symm 0 0
  have h4 := ha 0; have h5 := ha 1
  simp at h4 h5
  linarith

/-- DISAGREEMENT: with `reduction='none'` the elements returned by `KLDivergence` are not losses:
whenever student and teacher disagree at a position, an element of that position is negative. -/
theorem C61_kl_elements_violated {N C P : ℕ} [NeZero C] (k : Kl) (hr : k.red = .none) (hτ : k.tau ≠ 0) (hw : 0 < k.weight)
    (s t : Tensor N C P) (n : Fin N) (i : Fin P) (h : ¬ Same (fun c => s n c i) (fun c => t n c i)) :
    ∃ x, klForward k s t = .full x ∧ ∃ c, x n c i < 0 := by
  set p : Fin N → Fin P → Fin C → ℝ := fun n i => softmax fun j => t n j i / k.tau with hpd
  set q : Fin N → Fin P → Fin C → ℝ := fun n i => softmax fun j => s n j i / k.tau with hqd
  have hp : ∀ n i, Probs (fun j => t n j i / k.tau) (p n i) := fun n i => softmax_probs _
  have hq : ∀ n i, Probs (fun j => s n j i / k.tau) (q n i) := fun n i => softmax_probs _
  refine ⟨_, (C61_kl_value k s t p q hp hq).2.2.2 hr, ?_⟩
  have hne : p n i ≠ q n i := fun e => h ((same_div hτ _ _).1 (((hp n i).same (hq n i)).1 e))
  have hlt : ∃ c, p n i c < q n i c := by
    by_contra hall
    push Not at hall
    apply hne
    have hs : ∑ c, (p n i c - q n i c) = 0 := by
      rw [Finset.sum_sub_distrib, (hp n i).2.1, (hq n i).2.1, sub_self]
    rw [Finset.sum_eq_zero_iff_of_nonneg fun c _ => sub_nonneg.2 (hall c)] at hs
    exact funext fun c => sub_eq_zero.1 (hs c (Finset.mem_univ _))
  obtain ⟨c, hc⟩ := hlt
  have hpc := (hp n i).1 c
  have hqc := (hq n i).1 c
  have hl : Real.log (p n i c / q n i c) < 0 := Real.log_neg (div_pos hpc hqc) ((div_lt_one hqc).2 hc)
  have hτ2 : 0 < k.tau ^ 2 := by positivity
  exact ⟨c, mul_neg_of_pos_of_neg hw (mul_neg_of_pos_of_neg hτ2 (mul_neg_of_pos_of_neg hpc hl))⟩

/-! ### The gradient -/

/-- The gradient of `KLDivergence` (`batchmean`) with respect to a score of the student is the
difference of the two probabilities times the temperature: the factor `tau ** 2` makes it of
order one in the limit of high temperatures, where the difference is of order `1 / tau`. -/
theorem C61_kl_gradient {N C P : ℕ} [NeZero C] (k : Kl) (hr : k.red = .batchmean) (hτ : k.tau ≠ 0) (s t : Tensor N C P)
    (p q : Fin N → Fin P → Fin C → ℝ) (hp : ∀ n i, Probs (fun j => t n j i / k.tau) (p n i))
    (hq : ∀ n i, Probs (fun j => s n j i / k.tau) (q n i)) (n : Fin N) (c : Fin C) (i : Fin P) :
    ∃ f : ℝ → ℝ, (∀ x, klForward k (put s n c i x) t = .scalar (f x)) ∧
      HasDerivAt f (k.weight * k.tau * (q n i c - p n i c) / N) (s n c i) := by
  let f : ℝ → ℝ := fun x => k.weight * (k.tau ^ 2 * (1 / N * ∑ n', ∑ i', ∑ j, (p n' i' j * Real.log (p n' i' j) -
    p n' i' j * logSoftmax (fun j => put s n c i x n' j i' / k.tau) j)))
  refine ⟨f, fun x => ?_, ?_⟩
  · have e := (C61_kl_value k (put s n c i x) t p _ hp (fun n' i' => softmax_probs _)).2.1 hr
    rw [e]
    congr 3
    rw [one_div_mul_eq_div]
    congr 1
    refine Finset.sum_congr rfl fun n' _ => Finset.sum_congr rfl fun i' _ => Finset.sum_congr rfl fun j _ => ?_
    rw [(hp n' i').eq_softmax, ← kl_term]
  · have hd : ∀ n' i' j, HasDerivAt (fun x => p n' i' j * Real.log (p n' i' j) -
        p n' i' j * logSoftmax (fun j => put s n c i x n' j i' / k.tau) j)
        (if n' = n ∧ i' = i then -(p n i j * (((if j = c then 1 else 0) - q n i c) / k.tau)) else 0) (s n c i) := by
      intro n' i' j
      by_cases h : n' = n ∧ i' = i
      · obtain ⟨rfl, rfl⟩ := h
        rw [if_pos ⟨rfl, rfl⟩, (hq n' i').eq_softmax]
        have h1 := hasDerivAt_logSoftmax (fun j => s n' j i') k.tau c j
        have e : ∀ x j, put s n' c i' x n' j i' = if j = c then x else s n' j i' := by
          intro x j; simp [put]
        simp only [e]
        refine ((hasDerivAt_const _ _).sub (h1.const_mul (p n' i' j))).congr_deriv ?_
        rw [zero_sub]
      · rw [if_neg h]
        have e : ∀ x j, put s n c i x n' j i' = s n' j i' := by
          intro x j
          exact if_neg fun g => h ⟨g.1, g.2.2⟩
        simp only [e]
        exact hasDerivAt_const _ _
    have hsum := ((((HasDerivAt.fun_sum fun n' _ => HasDerivAt.fun_sum fun i' _ => HasDerivAt.fun_sum fun j _ => hd n' i' j :
      HasDerivAt (fun x => ∑ n' : Fin N, ∑ i' : Fin P, ∑ j : Fin C, _) _ (s n c i)).const_mul ((1 : ℝ) / N)).const_mul
        (k.tau ^ 2)).const_mul k.weight)
    refine hsum.congr_deriv ?_
    have e1 : (∑ n' : Fin N, ∑ i' : Fin P, ∑ j : Fin C, (if n' = n ∧ i' = i then
        -(p n i j * (((if j = c then (1:ℝ) else 0) - q n i c) / k.tau)) else 0)) = (q n i c - p n i c) / k.tau := by
      rw [Finset.sum_eq_single n, Finset.sum_eq_single i]
      · simp only [true_and, if_true, and_self]
        rw [Finset.sum_neg_distrib]
        have : ∀ j, p n i j * (((if j = c then (1:ℝ) else 0) - q n i c) / k.tau) =
            (if j = c then p n i j else 0) / k.tau - p n i j * (q n i c / k.tau) := by
          intro j; split_ifs <;> ring
        simp only [this]
        rw [Finset.sum_sub_distrib, ← Finset.sum_mul, (hp n i).2.1, ← Finset.sum_div, Finset.sum_ite_eq' Finset.univ c]
        simp only [Finset.mem_univ, if_true]
        ring
      · intro b _ hb; simp [hb]
      · simp
      · intro b _ hb; simp [hb]
      · simp
    rw [e1]
    field_simp

/-! ### Channel-wise divergence -/

/-- `ChannelWiseDivergence` on feature maps of equal shapes is never negative, and zero exactly when
in every channel of every sample the two maps differ by a constant. -/
theorem C61_cwd {tau weight : ℝ} (hτ : tau ≠ 0) (hw : 0 < weight) (n c h w : ℕ) (hn : 0 < n) (hc : 0 < c) (hm : 0 < w * h)
    (a b : ℕ → ℝ) :
    ∃ x, cwdForward tau weight ⟨n, c, h, w, a⟩ ⟨n, c, h, w, b⟩ = .ok x ∧ 0 ≤ x ∧
      (x = 0 ↔ ∀ r < n * c, ∃ d, ∀ j < w * h, a (r * (w * h) + j) = b (r * (w * h) + j) + d) := by
  have : NeZero (w * h) := ⟨hm.ne'⟩
  unfold cwdForward
  rw [dif_pos ⟨rfl, rfl⟩]
  dsimp only
  rw [if_pos rfl]
  refine ⟨_, rfl, ?_, ?_⟩
  · have hS : 0 ≤ ∑ r ∈ Finset.range (n * c), kl (softmax fun j : Fin (w * h) => b (r * (w * h) + j) / tau)
        (softmax fun j : Fin (w * h) => a (r * (w * h) + j) / tau) :=
      Finset.sum_nonneg fun r _ => (softmax_probs _).kl_nonneg (softmax_probs _)
    simp only [cwd_term]
    have := hS
    simp only [Map.row, Fin.val_cast]
    positivity
  · simp only [cwd_term, Map.row, Fin.val_cast]
    have hnR : (n : ℝ) ≠ 0 := Nat.cast_ne_zero.2 hn.ne'
    have hcR : (c : ℝ) ≠ 0 := Nat.cast_ne_zero.2 hc.ne'
    rw [div_eq_zero_iff, mul_eq_zero, mul_eq_zero, mul_eq_zero]
    simp only [hw.ne', pow_eq_zero_iff, ne_eq, OfNat.ofNat_ne_zero, not_false_eq_true, hτ, hnR, hcR, or_false, false_or, or_self]
    rw [Finset.sum_eq_zero_iff_of_nonneg fun r _ => (softmax_probs _).kl_nonneg (softmax_probs _)]
    refine forall_congr' fun r => ?_
    rw [Finset.mem_range, (softmax_probs _).kl_zero (softmax_probs _), same_div hτ]
    refine imp_congr_right fun _ => ⟨?_, ?_⟩
    · rintro ⟨d, h⟩; exact ⟨d, fun j hj => h ⟨j, hj⟩⟩
    · rintro ⟨d, h⟩; exact ⟨d, fun j => h j j.2⟩

/-- DISAGREEMENT: `ChannelWiseDivergence` checks the height and width only. Feature maps with the
same product of samples and channels, such as those with both swapped, are compared row by row
without an error, and a teacher with a single map is compared with every channel. -/
theorem C61_cwd_shape_violated (tau weight : ℝ) (s t : Map) :
    (∃ x, cwdForward tau weight s t = .ok x) ↔
      (s.h = t.h ∧ s.w = t.w) ∧ (s.n * s.c = t.n * t.c ∨ s.n * s.c = 1 ∨ t.n * t.c = 1) := by
  unfold cwdForward
  by_cases h : s.h = t.h ∧ s.w = t.w
  · rw [dif_pos h]
    dsimp only
    by_cases h1 : s.n * s.c = t.n * t.c
    · rw [if_pos h1]; simp [h, h1, Except.map]
    · rw [if_neg h1]
      by_cases h2 : t.n * t.c = 1
      · rw [if_pos h2]; simp [h, h2, Except.map]
      · rw [if_neg h2]
        by_cases h3 : s.n * s.c = 1
        · rw [if_pos h3]; simp [h, h3, Except.map]
        · rw [if_neg h3]; simp [h1, h2, h3, Except.map]
  · rw [dif_neg h]; simp [h]

example : ∃ x, cwdForward 1 1 ⟨2, 3, 4, 4, fun _ => 0⟩ ⟨3, 2, 4, 4, fun _ => 0⟩ = .ok x :=
  (C61_cwd_shape_violated _ _ _ _).2 ⟨⟨rfl, rfl⟩, Or.inl rfl⟩

/-! ### Decoupled distillation -/

/-- `DKDLoss` is the weighted sum of the divergence between the probabilities of the label and the
divergence between the probabilities after lowering the label's score by a thousand; `batchmean`
divides by the number of samples, every other reduction sums. -/
theorem C61_dkd_value {N C : ℕ} (h2 : 2 ≤ C) (d : Dkd) (s t : Tensor N C 1) (l : Fin N → Fin C)
    (p q p' q' : Fin N → Fin C → ℝ) (hp : ∀ n, Probs (fun j => t n j 0 / d.tau) (p n))
    (hq : ∀ n, Probs (fun j => s n j 0 / d.tau) (q n)) (hp' : ∀ n, Probs (lowered d.tau (fun j => t n j 0) (l n)) (p' n))
    (hq' : ∀ n, Probs (lowered d.tau (fun j => s n j 0) (l n)) (q' n)) (D : ℝ)
    (hD : D = if d.red = .batchmean then 1 / (N : ℝ) else 1) :
    dkdForward d s t (List.ofFn fun n => ((l n : ℕ) : ℤ)) = .ok (d.weight *
      (d.alpha * (d.tau ^ 2 * (D * ∑ n, kl2 (p n (l n)) (q n (l n)))) +
        d.beta * (d.tau ^ 2 * (D * ∑ n, kl (p' n) (q' n))))) := by
  have : NeZero C := ⟨by omega⟩
  have eT : tckd d s t (List.ofFn fun n => ((l n : ℕ) : ℤ)) =
      .scalar (d.tau ^ 2 * (D * ∑ n, kl2 (p n (l n)) (q n (l n)))) := by
    unfold tckd
    rw [dkdKl_eq, ← hD]
    congr 3
    refine Finset.sum_congr rfl fun n _ => ?_
    rw [← kl2_eq, ← log_sub_kl]
    · refine Finset.sum_congr rfl fun k _ => ?_
      rw [cat_ofFn _ _ _ _ _ (softmax_probs _).2.1, cat_ofFn _ _ _ _ _ (softmax_probs _).2.1, ← (hp n).eq_softmax,
        ← (hq n).eq_softmax]
    · intro k
      have h0 := (hp n).1 (l n); have h1 := (hp n).lt_one h2 (l n)
      fin_cases k <;> simp <;> linarith
    · intro k
      have h0 := (hq n).1 (l n); have h1 := (hq n).lt_one h2 (l n)
      fin_cases k <;> simp <;> linarith
  have eN : nckd d s t (List.ofFn fun n => ((l n : ℕ) : ℤ)) = .scalar (d.tau ^ 2 * (D * ∑ n, kl (p' n) (q' n))) := by
    unfold nckd
    dsimp only
    rw [dkdKl_eq, ← hD]
    congr 3
    refine Finset.sum_congr rfl fun n _ => ?_
    simp only [lowered_eq, ← log_softmax, ← (hp' n).eq_softmax, ← (hq' n).eq_softmax]
    exact log_sub_kl (fun i => ((hp' n).1 i).ne') (fun i => ((hq' n).1 i).ne')
  unfold dkdForward
  rw [if_pos (scatter_ofFn l), eT, eN]

/-- What decoupling does, sample by sample: with `A` the divergence between the probabilities of
the label and `M` the divergence among the other classes, the classical loss is
`A + (1 - p) * M` with `p` the teacher's probability of the label; the second part of `DKDLoss` is
`A' + (1 - p') * M`, where `p'` and `A'` belong to the lowered score of the label and `p'` is at most
`exp (gap - 1000)`. -/
theorem C61_dkd_decomposition {C : ℕ} (h2 : 2 ≤ C) (τ : ℝ) (s t : Fin C → ℝ) (l : Fin C) (p q p' q' : Fin C → ℝ)
    (hp : Probs (fun j => t j / τ) p) (hq : Probs (fun j => s j / τ) q) (hp' : Probs (lowered τ t l) p')
    (hq' : Probs (lowered τ s l) q') :
    kl p q = kl2 (p l) (q l) + (1 - p l) * klOthers l p q ∧
    kl p' q' = kl2 (p' l) (q' l) + (1 - p' l) * klOthers l p q ∧
    ∀ i, i ≠ l → p' l ≤ Real.exp (t l / τ - t i / τ - 1000) := by
  refine ⟨kl_chain h2 hp hq l, ?_, fun i hi => ?_⟩
  · rw [kl_chain h2 hp' hq' l, lowered_klOthers h2 l hp hq hp' hq']
  · rw [hp'.2.2 l i]
    simp only [lowered, if_true, hi, if_false, sub_zero]
    have h1 := hp'.lt_one h2 i
    have h0 := Real.exp_pos (t l / τ - 1000 - t i / τ)
    have e : t l / τ - t i / τ - 1000 = t l / τ - 1000 - t i / τ := by ring
    rw [e]
    nlinarith

/-- With positive weights, `DKDLoss` is never negative, and zero exactly when the scores of student
and teacher differ by a constant in every sample. -/
theorem C61_dkd_nonneg {N C : ℕ} [NeZero N] (h2 : 2 ≤ C) (d : Dkd) (hτ : d.tau ≠ 0) (hw : 0 < d.weight) (ha : 0 ≤ d.alpha)
    (hb : 0 < d.beta) (s t : Tensor N C 1) (l : Fin N → Fin C) :
    ∃ x, dkdForward d s t (List.ofFn fun n => ((l n : ℕ) : ℤ)) = .ok x ∧ 0 ≤ x ∧
      (x = 0 ↔ ∀ n, Same (fun c => s n c 0) (fun c => t n c 0)) := by
  have : NeZero C := ⟨by omega⟩
  have hp : ∀ n, Probs (fun j => t n j 0 / d.tau) _ := fun n => softmax_probs _
  have hq : ∀ n, Probs (fun j => s n j 0 / d.tau) _ := fun n => softmax_probs _
  have hp' : ∀ n, Probs (lowered d.tau (fun j => t n j 0) (l n)) _ := fun n => softmax_probs _
  have hq' : ∀ n, Probs (lowered d.tau (fun j => s n j 0) (l n)) _ := fun n => softmax_probs _
  refine ⟨_, C61_dkd_value h2 d s t l _ _ _ _ hp hq hp' hq' _ rfl, ?_⟩
  have hN : (0 : ℝ) < N := Nat.cast_pos.2 (Nat.pos_of_ne_zero (NeZero.ne N))
  have hD : (0 : ℝ) < if d.red = .batchmean then 1 / (N : ℝ) else 1 := by split_ifs <;> positivity
  have hA : 0 ≤ ∑ n, kl2 (softmax (fun j => t n j 0 / d.tau) (l n)) (softmax (fun j => s n j 0 / d.tau) (l n)) :=
    Finset.sum_nonneg fun n _ => kl2_nonneg ((hp n).1 _) ((hp n).lt_one h2 _) ((hq n).1 _) ((hq n).lt_one h2 _)
  have hB0 : ∀ n, 0 ≤ kl (softmax (lowered d.tau (fun j => t n j 0) (l n))) (softmax (lowered d.tau (fun j => s n j 0) (l n))) :=
    fun n => (hp' n).kl_nonneg (hq' n)
  have hB := Finset.sum_nonneg fun n (_ : n ∈ Finset.univ) => hB0 n
  have hτ2 : 0 < d.tau ^ 2 := by positivity
  have hA' := mul_nonneg ha (mul_nonneg hτ2.le (mul_nonneg hD.le hA))
  have hB' := mul_nonneg hb.le (mul_nonneg hτ2.le (mul_nonneg hD.le hB))
  refine ⟨mul_nonneg hw.le (add_nonneg hA' hB'), ?_⟩
  rw [mul_eq_zero, or_iff_right hw.ne', add_eq_zero_iff_of_nonneg hA' hB']
  constructor
  · rintro ⟨-, h⟩ n
    rw [mul_eq_zero, or_iff_right hb.ne', mul_eq_zero, or_iff_right hτ2.ne', mul_eq_zero, or_iff_right hD.ne',
      Finset.sum_eq_zero_iff_of_nonneg fun n _ => hB0 n] at h
    exact (same_lowered hτ _ _ _).1 (((hp' n).kl_zero (hq' n)).1 (h n (Finset.mem_univ _)))
  · intro h
    constructor
    · rw [Finset.sum_eq_zero fun n _ => ?_, mul_zero, mul_zero, mul_zero]
      rw [((hp n).same (hq n)).2 ((same_div hτ _ _).2 (h n)), kl2, div_self ((hq n).1 _).ne',
        div_self (by linarith [(hq n).lt_one h2 (l n)]), Real.log_one]
      ring
    · rw [Finset.sum_eq_zero fun n _ => ?_, mul_zero, mul_zero, mul_zero]
      exact ((hp' n).kl_zero (hq' n)).2 ((same_lowered hτ _ _ _).2 (h n))

/-- DISAGREEMENT: the `reduction` of `DKDLoss` is passed on together with the deprecated
`size_average=False`, which wins: `'none'` and `'mean'` return the sum over samples and classes. -/
theorem C61_dkd_reduction_violated {N C : ℕ} (d : Dkd) (s t : Tensor N C 1) (labels : List ℤ) (r : Reduction) (hr : r ≠ .batchmean) :
    dkdForward { d with red := r } s t labels = dkdForward { d with red := .sum } s t labels := by
  unfold dkdForward tckd nckd
  simp only [dkdKl_eq]
  have e : (if r = .batchmean then 1 / (N : ℝ) else 1) = 1 := if_neg hr
  have e' : (if Reduction.sum = .batchmean then 1 / (N : ℝ) else 1) = 1 := if_neg (by decide)
  rw [e, e']

/-- DISAGREEMENT: the label is taken out of the second part of `DKDLoss` by lowering its score by a
thousand after the division by the temperature, not exactly. With two classes there is nothing to
compare among the other classes, and still that part is positive whenever the scores differ by more
than a constant (noticeably once the scaled scores are a thousand apart, as with a small
temperature). -/
theorem C61_dkd_mask_violated {N : ℕ} [NeZero N] (d : Dkd) (hτ : d.tau ≠ 0) (hw : 0 < d.weight) (ha : d.alpha = 0) (hb : 0 < d.beta)
    (s t : Tensor N 2 1) (l : Fin N → Fin 2) (h : ∃ n, ¬ Same (fun c => s n c 0) (fun c => t n c 0)) :
    (∀ n (p q : Fin 2 → ℝ), Probs (fun j => t n j 0 / d.tau) p → Probs (fun j => s n j 0 / d.tau) q → klOthers (l n) p q = 0) ∧
    ∃ x, dkdForward d s t (List.ofFn fun n => ((l n : ℕ) : ℤ)) = .ok x ∧ 0 < x := by
  constructor
  · intro n p q hp hq
    refine Finset.sum_eq_zero fun i hi => ?_
    have hi' := Finset.ne_of_mem_erase hi
    have key : ∀ {z p : Fin 2 → ℝ}, Probs z p → p i / (1 - p (l n)) = 1 := by
      intro z p hp
      have h1 := hp.others (l n)
      have e : (Finset.univ.erase (l n) : Finset (Fin 2)) = {i} := by
        ext j
        simp only [Finset.mem_erase, Finset.mem_univ, and_true, Finset.mem_singleton]
        omega
      rw [e, Finset.sum_singleton] at h1
      rw [h1]
      exact div_self (by linarith [hp.lt_one le_rfl (l n)])
    rw [key hp, key hq, div_self one_ne_zero, Real.log_one, mul_zero]
  · obtain ⟨x, h1, h2, h3⟩ := C61_dkd_nonneg le_rfl d hτ hw ha.ge hb s t l
    refine ⟨x, h1, lt_of_le_of_ne h2 fun e => ?_⟩
    obtain ⟨n, hn⟩ := h
    exact hn (h3.1 e.symm n)

example : ∃ x, dkdForward (N := 1) (C := 2) ⟨1, 0, 1, .batchmean, 1⟩ (fun _ c _ => if c = 0 then 1000 else 0)
    (fun _ c _ => if c = 0 then 2000 else 0) [0] = .ok x ∧ 0 < x :=
  (C61_dkd_mask_violated (N := 1) ⟨1, 0, 1, .batchmean, 1⟩ one_ne_zero one_pos rfl one_pos _ _ (fun _ => 0) ⟨0, fun ⟨a, ha⟩ => by
    have h4 := ha 0; have h5 := ha 1
    simp at h4 h5
    linarith⟩).2

/-- DISAGREEMENT: the labels are documented to have the shape (N, C); with the N * C numbers of
such a tensor the call fails. At most one label per sample is accepted. -/
theorem C61_dkd_labels_violated {N C : ℕ} (hN : 0 < N) (hC : 2 ≤ C) (d : Dkd) (s t : Tensor N C 1) (labels : List ℤ) :
    ((∃ x, dkdForward d s t labels = .ok x) ↔ labels.length ≤ N ∧ ∀ y ∈ labels, 0 ≤ y ∧ y < C) ∧
    (labels.length = N * C → dkdForward d s t labels = .error .runtime) := by
  have key : ∀ d : Dkd, (∃ x, dkdForward d s t labels = .ok x) ↔ scatterOk N C labels = true := by
    intro d
    unfold dkdForward tckd nckd
    simp only [dkdKl_eq]
    by_cases h : scatterOk N C labels = true <;> simp [h]
  constructor
  · rw [key]
    simp [scatterOk, List.all_eq_true]
  · intro h
    unfold dkdForward
    have : scatterOk N C labels = false := by
      unfold scatterOk
      have : ¬ labels.length ≤ N := by rw [h]; nlinarith
      simp [this]
    rw [this]; rfl

/-! ### Soft cross entropy and its relatives -/

/-- `KDSoftCELoss` is, for every sample, the entropy of the teacher plus the divergence of the
student from it, times the weight and (if asked) the squared temperature, reduced as configured; an
averaging factor replaces the number of samples with `mean`, and fails with `sum`. -/
theorem C61_softce_value {N C : ℕ} [NeZero C] (k : SoftCe) (s t : Fin N → Fin C → ℝ) (p q : Fin N → Fin C → ℝ)
    (hp : ∀ n, Probs (fun j => t n j / k.tau) (p n)) (hq : ∀ n, Probs (fun j => s n j / k.tau) (q n)) (f : ℝ)
    (hf : f = k.weight * if k.multSquare then k.tau ^ 2 else 1) :
    (k.red = .mean → softCeForward k s t = .ok (.scalar (f * ((∑ n, (entropy (p n) + kl (p n) (q n))) / N)))) ∧
    (∀ a, k.red = .mean → softCeForward k s t (some a) = .ok (.scalar (f * ((∑ n, (entropy (p n) + kl (p n) (q n))) / a)))) ∧
    (k.red = .sum → softCeForward k s t = .ok (.scalar (f * ∑ n, (entropy (p n) + kl (p n) (q n))))) ∧
    (∀ a, k.red = .sum → softCeForward k s t (some a) = .error .value) ∧
    (∀ a, k.red = .none → softCeForward k s t a = .ok (.each fun n => f * (entropy (p n) + kl (p n) (q n)))) ∧
    (∀ a r, r ≠ .pyNone → softCeForward k s t a (some r) = softCeForward { k with red := r } s t a) := by
  have e : ∀ n, ∑ c, -softmax (fun j => t n j / k.tau) c * logSoftmax (fun j => s n j / k.tau) c = entropy (p n) + kl (p n) (q n) :=
    fun n => ce_eq (hp n) (hq n)
  refine ⟨fun h => ?_, fun a h => ?_, fun h => ?_, fun a h => ?_, fun a h => ?_, fun a r hr => ?_⟩
  · simp only [softCeForward, e, h, reduceCe, Except.map, CeOut.scale, hf]
    split_ifs <;> congr 2 <;> ring
  · simp only [softCeForward, e, h, reduceCe, Except.map, CeOut.scale, hf]
    split_ifs <;> congr 2 <;> ring
  · simp only [softCeForward, e, h, reduceCe, Except.map, CeOut.scale, hf]
    split_ifs <;> congr 2 <;> ring
  · simp only [softCeForward, h, reduceCe, Except.map]
  · cases a <;> simp only [softCeForward, e, h, reduceCe, Except.map, CeOut.scale, hf] <;>
      split_ifs <;> congr 2 <;> ring
  · cases r
    · exact absurd rfl hr
    all_goals rfl

/-- The averaged `KDSoftCELoss` never falls below the (scaled) mean entropy of the teacher, and
reaches it exactly when the scores differ by a constant in every sample. -/
theorem C61_softce_minimum {N C : ℕ} [NeZero N] [NeZero C] (k : SoftCe) (hr : k.red = .mean) (hτ : k.tau ≠ 0) (hw : 0 < k.weight)
    (s t p : Fin N → Fin C → ℝ) (hp : ∀ n, Probs (fun j => t n j / k.tau) (p n)) (f : ℝ)
    (hf : f = k.weight * if k.multSquare then k.tau ^ 2 else 1) :
    ∃ x, softCeForward k s t = .ok (.scalar x) ∧ f * ((∑ n, entropy (p n)) / N) ≤ x ∧
      (x = f * ((∑ n, entropy (p n)) / N) ↔ ∀ n, Same (s n) (t n)) := by
  have hq : ∀ n, Probs (fun j => s n j / k.tau) _ := fun n => softmax_probs _
  refine ⟨_, (C61_softce_value k s t p _ hp hq f hf).1 hr, ?_⟩
  have hN : (0 : ℝ) < N := Nat.cast_pos.2 (Nat.pos_of_ne_zero (NeZero.ne N))
  have hf0 : 0 < f := by
    rw [hf]; split_ifs
    · positivity
    · linarith
  have h0 : ∀ n, 0 ≤ kl (p n) (softmax fun j => s n j / k.tau) := fun n => (hp n).kl_nonneg (hq n)
  rw [Finset.sum_add_distrib]
  have hK := Finset.sum_nonneg fun n (_ : n ∈ Finset.univ) => h0 n
  constructor
  · apply mul_le_mul_of_nonneg_left _ hf0.le
    apply div_le_div_of_nonneg_right _ hN.le
    linarith
  · rw [mul_right_inj' hf0.ne', div_left_inj' hN.ne', add_eq_left,
      Finset.sum_eq_zero_iff_of_nonneg fun n _ => h0 n]
    refine ⟨fun h n => ?_, fun h n _ => ?_⟩
    · exact (same_div hτ _ _).1 (((hp n).kl_zero (hq n)).1 (h n (Finset.mem_univ _)))
    · exact ((hp n).kl_zero (hq n)).2 ((same_div hτ _ _).2 (h n))

/-- DISAGREEMENT: `reduction=None` is accepted when `KDSoftCELoss` is built, and then every call
without an override fails. -/
theorem C61_softce_none_violated {N C : ℕ} (k : SoftCe) (h : parseCeReduction none = .ok k.red) (s t : Fin N → Fin C → ℝ) (a : Option ℝ) :
    softCeForward k s t a = .error .value := by
  have hr : k.red = .pyNone := by
    simp only [parseCeReduction] at h; injection h with h; exact h.symm
  cases a <;> simp only [softCeForward, hr, reduceCe, Except.map]

example : parseCeReduction none = .ok .pyNone := rfl

/-- `WSLD` is the mean over the samples of the cross entropy at the temperature, each weighted by
how hard the sample is for the student compared with the teacher at temperature one; it fails
unless the configured number of classes is the number of scores. -/
theorem C61_wsld_value {N C : ℕ} [NeZero C] (tau weight : ℝ) (s t : Fin N → Fin C → ℝ) (l : Fin N → Fin C)
    (p q p1 q1 : Fin N → Fin C → ℝ) (hp : ∀ n, Probs (fun j => t n j / tau) (p n)) (hq : ∀ n, Probs (fun j => s n j / tau) (q n))
    (hp1 : ∀ n, Probs (t n) (p1 n)) (hq1 : ∀ n, Probs (s n) (q1 n)) :
    wsldForward tau weight C s t (fun n => l n) = .ok (weight * (tau ^ 2 * ((∑ n,
      sampleWeight (-Real.log (q1 n (l n))) (-Real.log (p1 n (l n))) * (entropy (p n) + kl (p n) (q n))) / N))) ∧
    ∀ K, K ≠ C → wsldForward tau weight K s t (fun n => l n) = .error .runtime := by
  constructor
  · unfold wsldForward
    rw [if_pos ⟨fun n => (l n).2, rfl⟩]
    refine congrArg (fun x : ℝ => Except.ok (weight * (tau ^ 2 * (x / N)))) ?_
    refine Finset.sum_congr rfl fun n _ => ?_
    beta_reduce
    rw [hard_eq (s n) (l n) (hq1 n), hard_eq (t n) (l n) (hp1 n), ← ce_eq (hp n) (hq n)]
    congr 1
    · unfold focal sampleWeight
      rw [max_eq_left]
      have h1 := log_nonpos_of (hq1 n) (l n)
      have h2 := log_nonpos_of (hp1 n) (l n)
      apply div_nonneg <;> [linarith; skip]
      have : (0:ℝ) < 1 / 10 ^ 7 := by positivity
      linarith
    · rw [← Finset.sum_neg_distrib]
      exact Finset.sum_congr rfl fun c _ => by ring
  · intro K hK
    unfold wsldForward
    rw [if_neg fun h => hK h.2]

/-- The sample weight of `WSLD` lies between zero and one, is zero for a student certain of the
label, grows with the student's difficulty and shrinks with the teacher's. -/
theorem C61_wsld_weight {a b : ℝ} (ha : 0 ≤ a) (hb : 0 ≤ b) :
    0 ≤ sampleWeight a b ∧ sampleWeight a b < 1 ∧ (sampleWeight a b = 0 ↔ a = 0) ∧
    (∀ a', a < a' → sampleWeight a b < sampleWeight a' b) ∧ (∀ b', b ≤ b' → sampleWeight a b' ≤ sampleWeight a b) := by
  have hd : 0 < b + 1 / 10 ^ 7 := by positivity
  unfold sampleWeight
  refine ⟨?_, ?_, ?_, ?_, ?_⟩
  · have : Real.exp (-(a / (b + 1 / 10 ^ 7))) ≤ 1 := Real.exp_le_one_iff.2 (neg_nonpos.2 (div_nonneg ha hd.le))
    linarith
  · linarith [Real.exp_pos (-(a / (b + 1 / 10 ^ 7)))]
  · rw [sub_eq_zero, eq_comm, Real.exp_eq_one_iff, neg_eq_zero, div_eq_zero_iff, or_iff_left hd.ne']
  · intro a' h
    have : Real.exp (-(a' / (b + 1 / 10 ^ 7))) < Real.exp (-(a / (b + 1 / 10 ^ 7))) :=
      Real.exp_lt_exp.2 (neg_lt_neg (div_lt_div_of_pos_right h hd))
    linarith
  · intro b' h
    have : Real.exp (-(a / (b + 1 / 10 ^ 7))) ≤ Real.exp (-(a / (b' + 1 / 10 ^ 7))) := by
      apply Real.exp_le_exp.2 (neg_le_neg _)
      exact div_le_div_of_nonneg_left ha hd (by linarith)
    linarith

/-- `CrossEntropyLoss` is the mean negative log probability the student gives to the teacher's best
class. -/
theorem C61_ce {N C : ℕ} [NeZero C] {weight : ℝ} (hw : 0 ≤ weight) (best : (Fin C → ℝ) → Fin C) (hbest : ∀ (z : Fin C → ℝ) j, z j ≤ z (best z))
    (s t q : Fin N → Fin C → ℝ) (hq : ∀ n, Probs (s n) (q n)) :
    0 ≤ ceForward weight best s t ∧
    ∃ l : Fin N → Fin C, (∀ n j, t n j ≤ t n (l n)) ∧ ceForward weight best s t = weight * ((∑ n, -Real.log (q n (l n))) / N) := by
  have e : ceForward weight best s t = weight * ((∑ n, -Real.log (q n (best (t n)))) / N) := by
    unfold ceForward crossEntropy
    rw [mul_comm]
    congr 2
    exact Finset.sum_congr rfl fun n _ => by rw [← log_softmax, ← (hq n).eq_softmax]
  refine ⟨?_, fun n => best (t n), fun n j => hbest _ j, e⟩
  rw [e]
  have : 0 ≤ ∑ n, -Real.log (q n (best (t n))) := Finset.sum_nonneg fun n _ => neg_nonneg.2 (log_nonpos_of (hq n) _)
  positivity

/-- `OnehotLikeLoss` lies between zero and the logarithm of the number of classes (times the
weight), and is the mean negative log of the largest probability. -/
theorem C61_onehot {N C : ℕ} [NeZero N] [NeZero C] {weight : ℝ} (hw : 0 ≤ weight) (best : (Fin C → ℝ) → Fin C) (hbest : ∀ (z : Fin C → ℝ) j, z j ≤ z (best z))
    (t q : Fin N → Fin C → ℝ) (hq : ∀ n, Probs (t n) (q n)) :
    0 ≤ onehotForward weight best t ∧ onehotForward weight best t ≤ weight * Real.log C ∧
    ∃ m : Fin N → ℝ, (∀ n, IsGreatest (Set.range (q n)) (m n)) ∧ onehotForward weight best t = weight * ((∑ n, -Real.log (m n)) / N) := by
  have e : onehotForward weight best t = weight * ((∑ n, -Real.log (q n (best (t n)))) / N) := by
    unfold onehotForward crossEntropy
    congr 2
    exact Finset.sum_congr rfl fun n _ => by rw [← log_softmax, ← (hq n).eq_softmax]
  have hg : ∀ n j, q n j ≤ q n (best (t n)) := by
    intro n j
    rw [(hq n).2.2 j (best (t n))]
    have h1 : Real.exp (t n j - t n (best (t n))) ≤ 1 := Real.exp_le_one_iff.2 (by linarith [hbest (t n) j])
    have h0 := (hq n).1 (best (t n))
    nlinarith
  have hC : (0 : ℝ) < C := Nat.cast_pos.2 (Nat.pos_of_ne_zero (NeZero.ne C))
  have hN : (0 : ℝ) < N := Nat.cast_pos.2 (Nat.pos_of_ne_zero (NeZero.ne N))
  refine ⟨?_, ?_, fun n => q n (best (t n)), fun n => ⟨⟨_, rfl⟩, ?_⟩, e⟩
  · rw [e]
    have : 0 ≤ ∑ n, -Real.log (q n (best (t n))) := Finset.sum_nonneg fun n _ => neg_nonneg.2 (log_nonpos_of (hq n) _)
    positivity
  · rw [e]
    refine mul_le_mul_of_nonneg_left ?_ hw
    rw [div_le_iff₀ hN]
    have hb : ∀ n, -Real.log (q n (best (t n))) ≤ Real.log C := by
      intro n
      rw [← Real.log_inv]
      refine Real.log_le_log (inv_pos.2 ((hq n).1 _)) ?_
      rw [inv_le_comm₀ ((hq n).1 _) hC]
      have : (1:ℝ) ≤ C * q n (best (t n)) := by
        rw [← (hq n).2.1]
        calc ∑ i, q n i ≤ ∑ _i : Fin C, q n (best (t n)) := Finset.sum_le_sum fun i _ => hg n i
          _ = _ := by simp
      rw [inv_le_iff_one_le_mul₀ hC, mul_comm]; exact this
    calc ∑ n, -Real.log (q n (best (t n))) ≤ ∑ _n : Fin N, Real.log C := Finset.sum_le_sum fun n _ => hb n
      _ = Real.log C * N := by simp [mul_comm]
  · rintro x ⟨j, rfl⟩; exact hg n j

/-- `InformationEntropyLoss` lies between minus the decimal logarithm of the number of classes and
zero (times the weight) and is least exactly when the mean probabilities are uniform. -/
theorem C61_entropy {N C : ℕ} [NeZero N] [NeZero C] {weight : ℝ} (hw : 0 < weight) (t q : Fin N → Fin C → ℝ) (hq : ∀ n, Probs (t n) (q n)) :
    -(weight * Real.logb 10 C) ≤ entropyForward weight t ∧ entropyForward weight t ≤ 0 ∧
    (entropyForward weight t = -(weight * Real.logb 10 C) ↔ ∀ c, (∑ n, q n c) / N = 1 / C) := by
  have hC : (0 : ℝ) < C := Nat.cast_pos.2 (Nat.pos_of_ne_zero (NeZero.ne C))
  have hN : (0 : ℝ) < N := Nat.cast_pos.2 (Nat.pos_of_ne_zero (NeZero.ne N))
  have hL : 0 < Real.log 10 := Real.log_pos (by norm_num)
  set m : Fin C → ℝ := fun c => (∑ n, q n c) / N with hm
  have hm0 : ∀ c, 0 < m c := fun c => div_pos (Finset.sum_pos (fun n _ => (hq n).1 c)
    ⟨⟨0, Nat.pos_of_ne_zero (NeZero.ne N)⟩, Finset.mem_univ _⟩) hN
  have hm1 : ∑ c, m c = 1 := by
    rw [hm, ← Finset.sum_div, Finset.sum_comm]
    rw [Finset.sum_congr rfl fun n _ => (hq n).2.1]
    simp [hN.ne']
  have e : entropyForward weight t = weight * (∑ c, m c * Real.log (m c)) / Real.log 10 := by
    unfold entropyForward
    simp only [Real.logb, ← (hq _).eq_softmax]
    rw [mul_div_assoc, Finset.sum_div]
    congr 1
    exact Finset.sum_congr rfl fun c _ => by rw [mul_div_assoc]
  have hk : ∑ c, m c * Real.log (m c) = kl m (fun _ => 1 / (C : ℝ)) - Real.log C := by
    have : ∀ c, m c * Real.log (m c / (1 / (C : ℝ))) = m c * Real.log (m c) + m c * Real.log C := by
      intro c
      rw [div_div_eq_mul_div, div_one, Real.log_mul (hm0 c).ne' hC.ne', mul_add]
    rw [kl, Finset.sum_congr rfl fun c _ => this c, Finset.sum_add_distrib, ← Finset.sum_mul, hm1]; ring
  have hu1 : ∑ _c : Fin C, 1 / (C : ℝ) = 1 := by simp [hC.ne']
  have hk0 := kl_nonneg hm0 (fun _ : Fin C => one_div_pos.2 hC) hm1 hu1
  have hkz := kl_zero hm0 (fun _ : Fin C => one_div_pos.2 hC) hm1 hu1
  have eb : entropyForward weight t - -(weight * Real.logb 10 C) = weight * kl m (fun _ => 1 / (C : ℝ)) / Real.log 10 := by
    rw [e, hk, Real.logb]; field_simp; ring
  refine ⟨?_, ?_, ?_⟩
  · have : 0 ≤ weight * kl m (fun _ => 1 / (C : ℝ)) / Real.log 10 := by positivity
    linarith
  · rw [e]
    have : ∑ c, m c * Real.log (m c) ≤ 0 := Finset.sum_nonpos fun c _ => by
      refine mul_nonpos_of_nonneg_of_nonpos (hm0 c).le (Real.log_nonpos (hm0 c).le ?_)
      rw [← hm1]; exact Finset.single_le_sum (fun i _ => (hm0 i).le) (Finset.mem_univ c)
    exact div_nonpos_of_nonpos_of_nonneg (mul_nonpos_of_nonneg_of_nonpos hw.le this) hL.le
  · rw [← sub_eq_zero, eb, div_eq_zero_iff, or_iff_left hL.ne', mul_eq_zero, or_iff_right hw.ne', hkz]
    exact funext_iff

/-- The names of reductions that the constructors accept, and what they stand for. -/
theorem C61_reductions (s : String) :
    (s = "none" ∧ parseReduction s = .ok .none) ∨ (s = "batchmean" ∧ parseReduction s = .ok .batchmean) ∨
    (s = "sum" ∧ parseReduction s = .ok .sum) ∨ (s = "mean" ∧ parseReduction s = .ok .mean) ∨
    (s ∉ ["none", "batchmean", "sum", "mean"] ∧ parseReduction s = .error .assertion) := by
  by_cases h1 : s = "none"
  · subst h1; exact Or.inl ⟨rfl, by decide +kernel⟩
  by_cases h2 : s = "batchmean"
  · subst h2; exact Or.inr (Or.inl ⟨rfl, by decide +kernel⟩)
  by_cases h3 : s = "sum"
  · subst h3; exact Or.inr (Or.inr (Or.inl ⟨rfl, by decide +kernel⟩))
  by_cases h4 : s = "mean"
  · subst h4; exact Or.inr (Or.inr (Or.inr (Or.inl ⟨rfl, by decide +kernel⟩)))
  refine Or.inr (Or.inr (Or.inr (Or.inr ⟨by simp [h1, h2, h3, h4], ?_⟩)))
  unfold parseReduction
  rw [if_neg h1, if_neg h2, if_neg h3, if_neg h4]

/-- The reductions `KDSoftCELoss` accepts, among them Python's `None`; every other name is
refused. -/
theorem C61_softce_reductions (r : Option String) :
    (r = none ∧ parseCeReduction r = .ok .pyNone) ∨ (r = some "none" ∧ parseCeReduction r = .ok .none) ∨
    (r = some "mean" ∧ parseCeReduction r = .ok .mean) ∨ (r = some "sum" ∧ parseCeReduction r = .ok .sum) ∨
    (r ∉ [none, some "none", some "mean", some "sum"] ∧ parseCeReduction r = .error .assertion) := by
  cases r with
  | none => exact Or.inl ⟨rfl, rfl⟩
  | some s =>
    by_cases h1 : s = "none"
    · subst h1; exact Or.inr (Or.inl ⟨rfl, by decide +kernel⟩)
    by_cases h2 : s = "mean"
    · subst h2; exact Or.inr (Or.inr (Or.inl ⟨rfl, by decide +kernel⟩))
    by_cases h3 : s = "sum"
    · subst h3; exact Or.inr (Or.inr (Or.inr (Or.inl ⟨rfl, by decide +kernel⟩)))
    refine Or.inr (Or.inr (Or.inr (Or.inr ⟨by simp [h1, h2, h3], ?_⟩)))
    unfold parseCeReduction
    dsimp only
    rw [if_neg h1, if_neg h2, if_neg h3]

end Verif.LogitLoss
