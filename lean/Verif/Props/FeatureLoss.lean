import Verif.Lemmas.FeatureLoss

/-! C62: distillation losses on features. -/

namespace Verif.FeatureLoss
open Verif

/-! ### Lemmas -/

/-! ### C62 -/

/-- `L1Loss` with a reduction it supports: the weighted sum or mean of the absolute differences,
never negative and zero exactly for equal features. -/
theorem C62_l1 {N D : ℕ} [NeZero N] [NeZero D] (k : L1) (hw : 0 < k.weight) (hl : k.sizeAverage = none ∧ k.reduce = none) (s t : Feat N D) :
    (k.red = .sum → l1Forward k s t = .ok (.scalar (k.weight * ∑ n, ∑ d, |s n d - t n d|))) ∧
    (k.red = .mean → l1Forward k s t = .ok (.scalar (k.weight * ((∑ n, ∑ d, |s n d - t n d|) / (N * D))))) ∧
    (k.red = .none → l1Forward k s t = .ok (.full fun n d => k.weight * |s n d - t n d|)) ∧
    ∀ x, l1Forward k s t = .ok (.scalar x) → 0 ≤ x ∧ (x = 0 ↔ s = t) := by
  have hN : (0 : ℝ) < N := Nat.cast_pos.2 (Nat.pos_of_ne_zero (NeZero.ne N))
  have hD : (0 : ℝ) < D := Nat.cast_pos.2 (Nat.pos_of_ne_zero (NeZero.ne D))
  have h0 : 0 ≤ ∑ n, ∑ d, |s n d - t n d| := Finset.sum_nonneg fun _ _ => Finset.sum_nonneg fun _ _ => abs_nonneg _
  have e : l1Forward k s t = match k.red with
      | .none => .ok (.full fun n d => k.weight * |s n d - t n d|)
      | .mean => .ok (.scalar (k.weight * ((∑ n, ∑ d, |s n d - t n d|) / (N * D))))
      | .sum => .ok (.scalar (k.weight * ∑ n, ∑ d, |s n d - t n d|))
      | .batchmean => .error .value := by
    unfold l1Forward; simp only [hl.1, hl.2, Option.isSome, Bool.or_self, Bool.false_eq_true, if_false]; cases k.red <;> rfl
  refine ⟨fun h => by rw [e, h], fun h => by rw [e, h], fun h => by rw [e, h], fun x hx => ?_⟩
  rw [e] at hx
  rw [← absDist_zero]
  cases hr : k.red <;> rw [hr] at hx <;> simp only [Except.ok.injEq, Out.scalar.injEq, reduceCtorEq] at hx
  · subst hx
    exact ⟨by positivity, by rw [mul_eq_zero, or_iff_right hw.ne']⟩
  · subst hx
    exact ⟨by positivity, by rw [mul_eq_zero, or_iff_right hw.ne', div_eq_zero_iff, or_iff_left (by positivity)]⟩

/-- The deprecated arguments win over `reduction`, as documented. -/
theorem C62_l1_deprecated {N D : ℕ} (k : L1) (s t : Feat N D) :
    (k.reduce = some false → l1Forward k s t = .ok (.full fun n d => k.weight * |s n d - t n d|)) ∧
    (k.reduce ≠ some false → k.sizeAverage = some false → l1Forward k s t = .ok (.scalar (k.weight * ∑ n, ∑ d, |s n d - t n d|))) ∧
    (k.reduce ≠ some false → k.sizeAverage = some true →
      l1Forward k s t = .ok (.scalar (k.weight * ((∑ n, ∑ d, |s n d - t n d|) / (N * D))))) := by
  unfold l1Forward
  rcases hs : k.sizeAverage with _ | _ | _ <;> rcases hr : k.reduce with _ | _ | _ <;> simp

/-- DISAGREEMENT: `L1Loss` accepts `reduction='batchmean'` when it is built, and then every call
without the deprecated arguments fails. -/
theorem C62_l1_batchmean_violated :
    parseReduction "batchmean" = .ok .batchmean ∧
    ∀ {N D : ℕ} (w : ℝ) (s t : Feat N D), l1Forward ⟨w, none, none, .batchmean⟩ s t = .error .value :=
  ⟨by decide +kernel, fun _ _ _ => rfl⟩

/-- `L2Loss` without normalisation: the weighted distance, or its square per sample or per element;
never negative and zero exactly for equal features. -/
theorem C62_l2_plain {N D : ℕ} [NeZero N] [NeZero D] (k : L2) (hw : 0 < k.weight) (h : k.normalize = false) (s t : Feat N D) :
    ∃ x, l2Forward k s t = some x ∧ 0 ≤ x ∧ (x = 0 ↔ s = t) ∧
      (k.dist = true → x = k.weight * Real.sqrt (sqDist s t)) ∧
      (k.dist = false → k.divElement = true → x = k.weight * (sqDist s t / (N * D))) ∧
      (k.dist = false → k.divElement = false → x = k.weight * (sqDist s t / N)) := by
  have hN : (0 : ℝ) < N := Nat.cast_pos.2 (Nat.pos_of_ne_zero (NeZero.ne N))
  have hD : (0 : ℝ) < D := Nat.cast_pos.2 (Nat.pos_of_ne_zero (NeZero.ne D))
  have h0 : 0 ≤ sqDist s t := sq_nonneg' s t
  have hz : sqDist s t = 0 ↔ s = t := sqDist_zero s t
  refine ⟨_, l2_plain k h s t, ?_, ?_, fun g => by rw [g]; rfl, fun g g' => by rw [g, g']; rfl, fun g g' => by rw [g, g']; rfl⟩
  · split_ifs <;> positivity
  · rw [← hz, mul_eq_zero, or_iff_right hw.ne']
    split_ifs
    · exact Real.sqrt_eq_zero h0
    · rw [div_eq_zero_iff, or_iff_left (by positivity)]
    · rw [div_eq_zero_iff, or_iff_left (by positivity)]

/-- `L2Loss` with normalisation, for features without a zero row: never negative, zero exactly when
every sample of the student points in the direction of the teacher's, and not changed by scaling the
samples of the student. Missing: zero rows, see `C62_l2_zero_violated`. -/
theorem C62_l2_normalised_partial {N D : ℕ} [NeZero N] [NeZero D] (k : L2) (hw : 0 < k.weight) (h : k.normalize = true) (hm : k.mult ≠ 0)
    (s t : Feat N D) (hs : ∀ n, ∃ d, s n d ≠ 0) (ht : ∀ n, ∃ d, t n d ≠ 0) :
    ∃ x, l2Forward k s t = some x ∧ 0 ≤ x ∧ (x = 0 ↔ ∀ n, Aligned (s n) (t n)) ∧
      ∀ a : Fin N → ℝ, (∀ n, 0 < a n) → l2Forward k (fun n d => a n * s n d) t = some x := by
  have hs' : ∀ n, norm (s n) ≠ 0 := fun n e => by obtain ⟨d, hd⟩ := hs n; exact hd ((norm_eq_zero _).1 e d)
  have ht' : ∀ n, norm (t n) ≠ 0 := fun n e => by obtain ⟨d, hd⟩ := ht n; exact hd ((norm_eq_zero _).1 e d)
  obtain ⟨x, h1, h2, h3, -⟩ := C62_l2_plain { k with normalize := false } hw rfl (fun n d => s n d / norm (s n) * k.mult)
    (fun n d => t n d / norm (t n) * k.mult)
  refine ⟨x, by rw [l2_norm k h s t hs' ht', h1], h2, ?_, fun a ha => ?_⟩
  · rw [h3, funext_iff]
    refine forall_congr' fun n => ?_
    rw [← aligned_iff (lt_of_le_of_ne (norm_nonneg' _) (hs' n).symm) (lt_of_le_of_ne (norm_nonneg' _) (ht' n).symm), funext_iff]
    exact forall_congr' fun d => mul_left_inj' hm
  · have hsa : ∀ n, norm (fun d => a n * s n d) ≠ 0 := fun n => by
      rw [norm_smul (ha n).le]; exact mul_ne_zero (ha n).ne' (hs' n)
    rw [l2_norm k h _ t hsa ht', ← h1]
    congr 1
    funext n d
    rw [norm_smul (ha n).le]
    have := (ha n).ne'
    have := hs' n
    field_simp

/-- DISAGREEMENT: the normalising `L2Loss` (the default) is not a number as soon as one sample of
either feature is zero everywhere, as after a ReLU, also when student and teacher are equal. -/
theorem C62_l2_zero_violated {N D : ℕ} (k : L2) (h : k.normalize = true) (s t : Feat N D) :
    l2Forward k s t = none ↔ ∃ n, (∀ d, s n d = 0) ∨ ∀ d, t n d = 0 := by
  simp only [← norm_eq_zero, exists_or]
  unfold l2Forward normalizeFeature
  simp only [h, if_true]
  by_cases h1 : ∃ n, norm (s n) = 0 <;> by_cases h2 : ∃ n, norm (t n) = 0 <;> simp only [h1, h2, if_true, if_false] <;> simp

example : l2Forward (N := 1) (D := 2) ⟨1, true, 1, false, false⟩ (fun _ _ => 0) (fun _ _ => 0) = none :=
  (C62_l2_zero_violated _ rfl _ _).2 ⟨0, Or.inl fun _ => rfl⟩

/-- `ATLoss` lies between zero and `2 / P` for P positions (times the weight) and is the same for
student features with any signs and any order of the channels. -/
theorem C62_at_range {N C C' P : ℕ} [NeZero N] [NeZero P] {w : ℝ} (hw : 0 ≤ w) (s : Fin N → Fin C → Fin P → ℝ) (t : Fin N → Fin C' → Fin P → ℝ) :
    0 ≤ atForward w s t ∧ atForward w s t ≤ w * (2 / P) ∧
    ∀ (σ : Fin C ≃ Fin C) (e : Fin N → Fin C → Fin P → ℝ), (∀ n c p, e n c p = 1 ∨ e n c p = -1) →
      atForward w (fun n c p => e n c p * s n (σ c) p) t = atForward w s t := by
  have hN : (0 : ℝ) < N := Nat.cast_pos.2 (Nat.pos_of_ne_zero (NeZero.ne N))
  have hP : (0 : ℝ) < P := Nat.cast_pos.2 (Nat.pos_of_ne_zero (NeZero.ne P))
  have h0 := sq_nonneg' (attention s) (attention t)
  refine ⟨by unfold atForward; positivity, ?_, ?_⟩
  · unfold atForward
    refine mul_le_mul_of_nonneg_left ?_ hw
    rw [div_le_div_iff₀ (by positivity) hP]
    have hrow : ∀ n, ∑ p, (attention s n p - attention t n p) ^ 2 ≤ 2 := by
      intro n
      have h1 : ∑ p, attention s n p ^ 2 ≤ 1 := unit_sq_le _
      have h2 : ∑ p, attention t n p ^ 2 ≤ 1 := unit_sq_le _
      calc ∑ p, (attention s n p - attention t n p) ^ 2 ≤ ∑ p, (attention s n p ^ 2 + attention t n p ^ 2) := by
            refine Finset.sum_le_sum fun p _ => ?_
            nlinarith [attention_nonneg s n p, attention_nonneg t n p, mul_nonneg (attention_nonneg s n p) (attention_nonneg t n p)]
        _ ≤ 2 := by rw [Finset.sum_add_distrib]; linarith
    have : ∑ n, ∑ p, (attention s n p - attention t n p) ^ 2 ≤ 2 * N :=
      calc _ ≤ ∑ _n : Fin N, (2 : ℝ) := Finset.sum_le_sum fun n _ => hrow n
        _ = 2 * N := by simp [mul_comm]
    nlinarith
  · intro σ e he
    have : attention (fun n c p => e n c p * s n (σ c) p) = attention s := by
      unfold attention
      funext n
      congr 1
      funext p
      congr 1
      rw [← Equiv.sum_comp σ fun c => s n c p ^ 2]
      refine Finset.sum_congr rfl fun c _ => ?_
      show (e n c p * s n (σ c) p) ^ 2 = _
      rcases he n c p with h | h <;> rw [h] <;> ring
    unfold atForward
    rw [this]

/-- `ATLoss` is zero exactly when in every sample the attention maps of student and teacher are
proportional, provided no map is below `1e-12` in norm; missing: those maps, see
`C62_tiny_violated`. -/
theorem C62_at_zero_partial {N C C' P : ℕ} [NeZero N] [NeZero P] [NeZero C] [NeZero C'] {w : ℝ} (hw : 0 < w)
    (s : Fin N → Fin C → Fin P → ℝ) (t : Fin N → Fin C' → Fin P → ℝ)
    (hs : ∀ n, 1 / 10 ^ 12 ≤ Real.sqrt (∑ p, (energy (s n) p / C) ^ 2)) (ht : ∀ n, 1 / 10 ^ 12 ≤ Real.sqrt (∑ p, (energy (t n) p / C') ^ 2)) :
    atForward w s t = 0 ↔ ∀ n, Aligned (energy (s n)) (energy (t n)) := by
  have hN : (0 : ℝ) < N := Nat.cast_pos.2 (Nat.pos_of_ne_zero (NeZero.ne N))
  have hP : (0 : ℝ) < P := Nat.cast_pos.2 (Nat.pos_of_ne_zero (NeZero.ne P))
  have hC : (0 : ℝ) < C := Nat.cast_pos.2 (Nat.pos_of_ne_zero (NeZero.ne C))
  have hC' : (0 : ℝ) < C' := Nat.cast_pos.2 (Nat.pos_of_ne_zero (NeZero.ne C'))
  unfold atForward
  rw [mul_eq_zero, or_iff_right hw.ne', div_eq_zero_iff, or_iff_left (by positivity), sqDist_zero, funext_iff]
  refine forall_congr' fun n => ?_
  have e1 : attention s n = fun p => (energy (s n) p / C) / norm fun p => energy (s n) p / C := by
    funext p; exact unit_of_ge (hs n) p
  have e2 : attention t n = fun p => (energy (t n) p / C') / norm fun p => energy (t n) p / C' := by
    funext p; exact unit_of_ge (ht n) p
  have hpos : (0 : ℝ) < 1 / 10 ^ 12 := by positivity
  rw [e1, e2, funext_iff, aligned_iff (lt_of_lt_of_le hpos (hs n)) (lt_of_lt_of_le hpos (ht n))]
  constructor
  · rintro ⟨a, ha, h⟩
    refine ⟨a * C / C', by positivity, fun p => ?_⟩
    have := h p
    field_simp at this ⊢
    linarith
  · rintro ⟨a, ha, h⟩
    refine ⟨a * C' / C, by positivity, fun p => ?_⟩
    show energy (s n) p / C = a * C' / C * (energy (t n) p / C')
    rw [h p]
    field_simp

/-- `FTLoss` is never negative, and, for samples of norm at least `1e-12`, zero exactly when every
sample of the student points in the direction of the teacher's. Missing: smaller samples, see
`C62_tiny_violated`. -/
theorem C62_ft_partial {N D : ℕ} [NeZero N] [NeZero D] {w : ℝ} (hw : 0 < w) (s t : Feat N D)
    (hs : ∀ n, 1 / 10 ^ 12 ≤ Real.sqrt (∑ d, s n d ^ 2)) (ht : ∀ n, 1 / 10 ^ 12 ≤ Real.sqrt (∑ d, t n d ^ 2)) :
    0 ≤ ftForward w s t ∧ (ftForward w s t = 0 ↔ ∀ n, Aligned (s n) (t n)) := by
  have hN : (0 : ℝ) < N := Nat.cast_pos.2 (Nat.pos_of_ne_zero (NeZero.ne N))
  have hD : (0 : ℝ) < D := Nat.cast_pos.2 (Nat.pos_of_ne_zero (NeZero.ne D))
  have h0 : 0 ≤ ∑ n, ∑ d, |unit (s n) d - unit (t n) d| := Finset.sum_nonneg fun _ _ => Finset.sum_nonneg fun _ _ => abs_nonneg _
  refine ⟨by unfold ftForward; positivity, ?_⟩
  unfold ftForward
  rw [mul_eq_zero, or_iff_right hw.ne', div_eq_zero_iff, or_iff_left (by positivity),
    absDist_zero (fun n => unit (s n)) (fun n => unit (t n)), funext_iff]
  refine forall_congr' fun n => ?_
  have hpos : (0 : ℝ) < 1 / 10 ^ 12 := by positivity
  rw [← aligned_iff (lt_of_lt_of_le hpos (hs n)) (lt_of_lt_of_le hpos (ht n)), funext_iff]
  refine forall_congr' fun d => ?_
  rw [unit_of_ge (hs n), unit_of_ge (ht n)]

/-- DISAGREEMENT: features of norm below `1e-12` are divided by `1e-12` instead of their norm, so
that `FTLoss` of two features of the same direction can be positive. -/
theorem C62_tiny_violated : ∃ s t : Feat 1 1, Aligned (s 0) (t 0) ∧ 0 < ftForward 1 s t := by
  refine ⟨fun _ _ => 1, fun _ _ => 1 / 10 ^ 13, ⟨10 ^ 13, by norm_num, fun d => by norm_num⟩, ?_⟩
  have h1 : norm (fun _ : Fin 1 => (1 : ℝ)) = 1 := by simp [norm]
  have h2 : norm (fun _ : Fin 1 => (1 / 10 ^ 13 : ℝ)) = 1 / 10 ^ 13 := by
    unfold norm
    rw [Finset.univ_unique, Finset.sum_singleton, Real.sqrt_sq (by positivity)]
  unfold ftForward unit
  simp only [h1, h2]
  rw [max_eq_left (by norm_num), max_eq_right (by norm_num)]
  norm_num

/-- `ABLoss` is a multiple of the sum, over all neurons, of the squared amount by which the student
misses the margin on the teacher's side of zero; it is zero exactly when no neuron misses it. -/
theorem C62_ab {N D : ℕ} [NeZero N] {w : ℝ} (hw : 0 < w) (m : ℝ) (s t : Feat N D) :
    abForward w m s t = w * (3 / (1000 * N)) *
      ∑ n, ∑ d, (if t n d ≤ 0 then max (s n d + m) 0 ^ 2 else max (m - s n d) 0 ^ 2) ∧
    0 ≤ abForward w m s t ∧
    (abForward w m s t = 0 ↔ ∀ n d, (t n d ≤ 0 → s n d ≤ -m) ∧ (0 < t n d → m ≤ s n d)) := by
  have hN : (0 : ℝ) < N := Nat.cast_pos.2 (Nat.pos_of_ne_zero (NeZero.ne N))
  have e : abForward w m s t = w * (3 / (1000 * N)) *
      ∑ n, ∑ d, (if t n d ≤ 0 then max (s n d + m) 0 ^ 2 else max (m - s n d) 0 ^ 2) := by
    unfold abForward
    simp only [alternative_eq]
    field_simp
  have h0 : ∀ n d, 0 ≤ (if t n d ≤ 0 then max (s n d + m) 0 ^ 2 else max (m - s n d) 0 ^ 2) := by
    intro n d; split_ifs <;> positivity
  refine ⟨e, ?_, ?_⟩
  · rw [e]
    exact mul_nonneg (by positivity) (Finset.sum_nonneg fun n _ => Finset.sum_nonneg fun d _ => h0 n d)
  · rw [e, mul_eq_zero, or_iff_right (by positivity), sum2_zero _ h0]
    refine forall_congr' fun n => forall_congr' fun d => ?_
    by_cases ht : t n d ≤ 0
    · rw [if_pos ht, pow_eq_zero_iff two_ne_zero, max_eq_right_iff]
      exact ⟨fun h => ⟨fun _ => by linarith, fun g => absurd g (not_lt.2 ht)⟩, fun h => by linarith [h.1 ht]⟩
    · rw [if_neg ht, pow_eq_zero_iff two_ne_zero, max_eq_right_iff]
      exact ⟨fun h => ⟨fun g => absurd g ht, fun _ => by linarith⟩, fun h => by linarith [h.2 (not_le.1 ht)]⟩

/-- `OFDLoss` is never negative and zero exactly when every value of the student equals the
teacher's, or lies below it while the teacher's is not positive. -/
theorem C62_ofd {N D : ℕ} [NeZero N] {w mul : ℝ} (hw : 0 < w) (hm : 0 < mul) (s t : Feat N D) :
    0 ≤ ofdForward w mul s t ∧ (ofdForward w mul s t = 0 ↔ ∀ n d, s n d = t n d ∨ (s n d ≤ t n d ∧ t n d ≤ 0)) ∧
    ((∀ n d, t n d < s n d ∨ 0 < t n d) → ofdForward w mul s t = w * sqDist s t / (N * mul)) := by
  have hN : (0 : ℝ) < N := Nat.cast_pos.2 (Nat.pos_of_ne_zero (NeZero.ne N))
  classical
  have h0 : ∀ n d, 0 ≤ (s n d - t n d) ^ 2 * (if s n d > t n d ∨ t n d > 0 then (1 : ℝ) else 0) := by
    intro n d; split_ifs <;> positivity
  have e : ofdForward w mul s t = w / (N * mul) * ∑ n, ∑ d, (s n d - t n d) ^ 2 * (if s n d > t n d ∨ t n d > 0 then (1 : ℝ) else 0) := by
    have : ofdForward w mul s t = w * ((∑ n, ∑ d, (s n d - t n d) ^ 2 * (if s n d > t n d ∨ t n d > 0 then (1 : ℝ) else 0)) / N / mul) := by
      unfold ofdForward; congr!
    rw [this]; field_simp
  rw [e]
  refine ⟨mul_nonneg (by positivity) (Finset.sum_nonneg fun n _ => Finset.sum_nonneg fun d _ => h0 n d), ?_, fun h => ?_⟩
  · rw [mul_eq_zero, or_iff_right (by positivity), sum2_zero _ h0]
    refine forall_congr' fun n => forall_congr' fun d => ?_
    by_cases h : s n d > t n d ∨ t n d > 0
    · rw [if_pos h, mul_one, pow_eq_zero_iff two_ne_zero, sub_eq_zero]
      refine ⟨Or.inl, ?_⟩
      rintro (g | ⟨g1, g2⟩)
      · exact g
      · rcases h with h | h <;> linarith
    · rw [if_neg h, mul_zero]
      rw [not_or] at h
      exact ⟨fun _ => Or.inr ⟨not_lt.1 h.1, not_lt.1 h.2⟩, fun _ => rfl⟩
  · have : ∑ n, ∑ d, (s n d - t n d) ^ 2 * (if s n d > t n d ∨ t n d > 0 then (1 : ℝ) else 0) = sqDist s t :=
      Finset.sum_congr rfl fun n _ => Finset.sum_congr rfl fun d _ => by rw [if_pos (h n d), mul_one]
    rw [this]; ring

example : ofdForward (N := 1) (D := 1) 1 1000 (fun _ _ => -3) (fun _ _ => -2) = 0 :=
  ((C62_ofd one_pos (by norm_num) _ _).2.1).2 fun _ _ => Or.inr ⟨by norm_num, by norm_num⟩

/-- `MGDLoss` is the squared distance per sample: never negative and zero exactly for equal
features. -/
theorem C62_mgd {N D : ℕ} [NeZero N] {a : ℝ} (ha : 0 < a) (s t : Feat N D) :
    mgdForward a s t = a * sqDist s t / N ∧ 0 ≤ mgdForward a s t ∧ (mgdForward a s t = 0 ↔ s = t) := by
  have hN : (0 : ℝ) < N := Nat.cast_pos.2 (Nat.pos_of_ne_zero (NeZero.ne N))
  have e : mgdForward a s t = a * sqDist s t / N := by unfold mgdForward sqDist; ring
  have h0 : 0 ≤ sqDist s t := sq_nonneg' s t
  refine ⟨e, by rw [e]; positivity, ?_⟩
  rw [e, div_eq_zero_iff, or_iff_left hN.ne', mul_eq_zero, or_iff_right ha.ne']
  exact sqDist_zero s t

/-- `ActivationLoss` is never positive, zero exactly for zero features, and enlarging the features
by a factor enlarges it by the same factor, for both kinds of norm; any other kind is rejected. -/
theorem C62_activation {N D : ℕ} [NeZero N] [NeZero D] {w : ℝ} (hw : 0 < w) (k : NormType) (x : Feat N D) :
    activationForward w k x ≤ 0 ∧ (activationForward w k x = 0 ↔ ∀ n d, x n d = 0) ∧
    (∀ a, 0 ≤ a → activationForward w k (fun n d => a * x n d) = a * activationForward w k x) ∧
    ∀ name, (∃ k, parseNorm name = .ok k) ↔ name = "norm" ∨ name = "abs" := by
  have hN : (0 : ℝ) < N := Nat.cast_pos.2 (Nat.pos_of_ne_zero (NeZero.ne N))
  have hD : (0 : ℝ) < D := Nat.cast_pos.2 (Nat.pos_of_ne_zero (NeZero.ne D))
  have h0 : 0 ≤ ∑ n, ∑ d, x n d ^ 2 := Finset.sum_nonneg fun _ _ => Finset.sum_nonneg fun _ _ => sq_nonneg _
  have h1 : 0 ≤ ∑ n, ∑ d, |x n d| := Finset.sum_nonneg fun _ _ => Finset.sum_nonneg fun _ _ => abs_nonneg _
  refine ⟨?_, ?_, ?_, ?_⟩
  · cases k <;> simp only [activationForward]
    · have := Real.sqrt_nonneg (∑ n, ∑ d, x n d ^ 2); nlinarith
    · have : 0 ≤ (∑ n, ∑ d, |x n d|) / (N * D) := by positivity
      nlinarith
  · cases k <;> simp only [activationForward]
    · rw [mul_eq_zero, or_iff_right hw.ne', neg_eq_zero, Real.sqrt_eq_zero h0, sum2_zero _ fun _ _ => sq_nonneg _]
      simp
    · rw [mul_eq_zero, or_iff_right hw.ne', neg_eq_zero, div_eq_zero_iff, or_iff_left (by positivity),
        sum2_zero _ fun _ _ => abs_nonneg _]
      simp
  · intro a ha
    cases k <;> simp only [activationForward]
    · have : ∑ n, ∑ d, (a * x n d) ^ 2 = a ^ 2 * ∑ n, ∑ d, x n d ^ 2 := by
        simp only [Finset.mul_sum, mul_pow]
      rw [this, Real.sqrt_mul (sq_nonneg a), Real.sqrt_sq ha]; ring
    · have : ∑ n, ∑ d, |a * x n d| = a * ∑ n, ∑ d, |x n d| := by
        simp only [Finset.mul_sum, abs_mul, abs_of_nonneg ha]
      rw [this]; ring
  · intro name
    unfold parseNorm
    by_cases h : name = "norm"
    · simp [h]
    · by_cases h' : name = "abs"
      · simp [h']
      · simp [h, h']

/-- DISAGREEMENT: with `norm_type='norm'` the `ActivationLoss` is the norm over all samples, so it
grows with the number of samples: repeating a batch four times doubles it, while `'abs'` is the mean. -/
theorem C62_activation_batch_violated {N D : ℕ} [NeZero N] [NeZero D] (w : ℝ) (x : Feat N D) :
    activationForward w .norm (fun n : Fin (4 * N) => x (n.modNat)) = 2 * activationForward w .norm x ∧
    activationForward w .abs (fun n : Fin (4 * N) => x (n.modNat)) = activationForward w .abs x := by
  have key : ∀ f : Fin N → ℝ, ∑ n : Fin (4 * N), f n.modNat = 4 * ∑ n, f n := by
    intro f
    rw [← finProdFinEquiv.sum_comp, Fintype.sum_prod_type]
    have : ∀ (i : Fin 4) (n : Fin N), (finProdFinEquiv (i, n)).modNat = n := by
      intro i n
      have := finProdFinEquiv.symm_apply_apply (i, n)
      exact congrArg Prod.snd this
    simp [this]
  have hN : (N : ℝ) ≠ 0 := Nat.cast_ne_zero.2 (NeZero.ne N)
  have hD : (D : ℝ) ≠ 0 := Nat.cast_ne_zero.2 (NeZero.ne D)
  constructor
  · simp only [activationForward]
    rw [key fun n => ∑ d, x n d ^ 2, Real.sqrt_mul (by norm_num), show (4 : ℝ) = 2 ^ 2 by norm_num, Real.sqrt_sq (by norm_num)]
    ring
  · simp only [activationForward]
    rw [key fun n => ∑ d, |x n d|]
    push_cast
    field_simp

/-- `FBKDLoss` with positive weights and positive masks: never negative, zero exactly when the
adapted student agrees with the teacher in the feature, the pooled channels (the teacher's are the
means of its feature), the pooled positions and the relations; the channel masks have no influence. -/
theorem C62_fbkd {N C P Q R : ℕ} (k : Fbkd) (h1 : 0 < k.mask) (h2 : 0 < k.channel) (h3 : 0 < k.spatial) (h4 : 0 < k.nonlocal) (h5 : 0 < k.weight)
    (s t : FbkdIn N C P Q R) (hs : ∀ n p, 0 < s.spatialMask n p) (ht : ∀ n p, 0 < t.spatialMask n p) :
    0 ≤ fbkdForward k s t ∧
    (fbkdForward k s t = 0 ↔ s.feat = t.feat ∧ (∀ n c, s.channelPool n c = (∑ p, t.feat n c p) / P) ∧
      s.spatialPool = t.spatialPool ∧ s.relation = t.relation) ∧
    ∀ a b, fbkdForward k { s with channelMask := a } { t with channelMask := b } = fbkdForward k s t := by
  have hd0 : ∀ {N D : ℕ} (a b : Feat N D), 0 ≤ dist a b := fun _ _ => Real.sqrt_nonneg _
  have hdz : ∀ {N D : ℕ} (a b : Feat N D), dist a b = 0 ↔ b = a := fun a b => by
    rw [dist, Real.sqrt_eq_zero (sq_nonneg' a b), sqDist_zero, eq_comm]
  have hm : ∀ n p, 0 < (t.spatialMask n p + s.spatialMask n p) / 2 := fun n p => by
    have := hs n p; have := ht n p; linarith
  have hterm : ∀ n c p, 0 ≤ (t.feat n c p - s.feat n c p) ^ 2 * ((t.spatialMask n p + s.spatialMask n p) / 2) :=
    fun n c p => mul_nonneg (sq_nonneg _) (hm n p).le
  have hS0 : 0 ≤ ∑ n, ∑ c, ∑ p, (t.feat n c p - s.feat n c p) ^ 2 * ((t.spatialMask n p + s.spatialMask n p) / 2) :=
    Finset.sum_nonneg fun n _ => Finset.sum_nonneg fun c _ => Finset.sum_nonneg fun p _ => hterm n c p
  have hSz : (∑ n, ∑ c, ∑ p, (t.feat n c p - s.feat n c p) ^ 2 * ((t.spatialMask n p + s.spatialMask n p) / 2)) = 0 ↔ s.feat = t.feat := by
    rw [Finset.sum_eq_zero_iff_of_nonneg fun n _ => Finset.sum_nonneg fun c _ => Finset.sum_nonneg fun p _ => hterm n c p]
    constructor
    · intro h
      funext n
      have h := h n (Finset.mem_univ _)
      rw [sum2_zero _ fun c p => hterm n c p] at h
      funext c p
      have := h c p
      rw [mul_eq_zero, or_iff_left (hm n p).ne', pow_eq_zero_iff two_ne_zero] at this
      linarith
    · intro h n _
      rw [h]; simp
  have ha := mul_nonneg (Real.sqrt_nonneg (∑ n, ∑ c, ∑ p, (t.feat n c p - s.feat n c p) ^ 2 * ((t.spatialMask n p + s.spatialMask n p) / 2))) h1.le
  have hb := mul_nonneg (hd0 (fun n c => (∑ p, t.feat n c p) / P) s.channelPool) h2.le
  have hc := mul_nonneg (hd0 t.spatialPool s.spatialPool) h3.le
  have hd := mul_nonneg (hd0 t.relation s.relation) h4.le
  unfold fbkdForward
  refine ⟨mul_nonneg h5.le (by positivity), ?_, fun a b => rfl⟩
  dsimp only
  rw [mul_eq_zero, or_iff_right h5.ne', add_eq_zero_iff_of_nonneg (by positivity) hd, add_eq_zero_iff_of_nonneg (by positivity) hc,
    add_eq_zero_iff_of_nonneg ha hb, mul_eq_zero, mul_eq_zero, mul_eq_zero, mul_eq_zero, or_iff_left h1.ne', or_iff_left h2.ne',
    or_iff_left h3.ne', or_iff_left h4.ne', hdz, hdz, hdz, Real.sqrt_eq_zero hS0, hSz, and_assoc, and_assoc]
  refine and_congr_right fun _ => and_congr_left fun _ => ?_
  simp only [funext_iff]

/-- Names of reductions and norms that are not listed are refused by an assertion, and listed ones are not. -/
theorem C62_names (s : String) :
    (parseReduction s = .error .assertion ↔ s ∉ ["none", "batchmean", "sum", "mean"]) ∧
    (parseNorm s = .error .assertion ↔ s ∉ ["norm", "abs"]) := by
  constructor
  · unfold parseReduction
    split_ifs <;> simp_all
  · unfold parseNorm
    split_ifs <;> simp_all

example : parseReduction "max" = .error .assertion ∧ parseNorm "l2" = .error .assertion :=
  ⟨(C62_names _).1.2 (by decide), (C62_names _).2.2 (by decide)⟩

end Verif.FeatureLoss
