import Verif.Lemmas.RelationLoss

/-! C63: distillation losses on relations. -/

namespace Verif.RelationLoss
open Verif Verif.FeatureLoss

/-! ### Lemmas -/

/-! ### C63 -/

/-- `DistanceWiseRKD` on at least two samples: the mean over all ordered pairs, equal ones included,
of the smooth loss of the difference of the relative distances. -/
theorem C63_distance_value {N D D' : ℕ} (hN : 2 ≤ N) (w : ℝ) (b : Bool) (s : Feat N D) (t : Feat N D') :
    distanceForward w b s t = some ((∑ ij ∈ pairs N, huber (relative (seen b s) ij.1 ij.2 - relative (seen b t) ij.1 ij.2)) / N ^ 2 * w) := by
  rw [distance_value hN, sum_pairs]
  · refine congrArg some ?_
    rw [pow_two]
    refine congrArg (fun y : ℝ => y / (N * N) * w) ?_
    refine Finset.sum_congr rfl fun ij hij => ?_
    have h : ij.1 ≠ ij.2 := by simpa [pairs] using hij
    rw [mean_relative _ h, mean_relative _ h, smooth_huber]
  · intro i
    rw [euclid_self, euclid_self]
    simp [smooth]

example : ((pairs 3).card : ℝ) = 6 := by
  rw [pairs_card]; norm_num

/-- `DistanceWiseRKD` on at least two samples is a number, never negative, and zero exactly when the
distances between the student's samples are one multiple of those between the teacher's; distances
below `1e-6` count as `1e-6`. -/
theorem C63_distance {N D D' : ℕ} (hN : 2 ≤ N) {w : ℝ} (hw : 0 < w) (b : Bool) (s : Feat N D) (t : Feat N D') :
    ∃ x, distanceForward w b s t = some x ∧ 0 ≤ x ∧
      (x = 0 ↔ ∃ a, 0 < a ∧ ∀ i j, i ≠ j → gap (seen b s i) (seen b s j) = a * gap (seen b t i) (seen b t j)) := by
  have hNR : (0 : ℝ) < N := Nat.cast_pos.2 (by omega)
  refine ⟨_, distance_value hN w b s t, ?_, ?_⟩
  · have : 0 ≤ ∑ i, ∑ j, smooth
      (euclid (seen b s) i j / ((∑ ij ∈ pairs N, euclid (seen b s) ij.1 ij.2) / (pairs N).card) -
        euclid (seen b t) i j / ((∑ ij ∈ pairs N, euclid (seen b t) ij.1 ij.2) / (pairs N).card)) :=
      Finset.sum_nonneg fun _ _ => Finset.sum_nonneg fun _ _ => smooth_nonneg _
    positivity
  · have ms := mean_pos hN (seen b s)
    have mt := mean_pos hN (seen b t)
    set m := (∑ ij ∈ pairs N, euclid (seen b s) ij.1 ij.2) / (pairs N).card with hm
    set m' := (∑ ij ∈ pairs N, euclid (seen b t) ij.1 ij.2) / (pairs N).card with hm'
    rw [mul_eq_zero, or_iff_left hw.ne', div_eq_zero_iff, or_iff_left (by positivity), sum2_zero _ fun _ _ => smooth_nonneg _]
    simp only [smooth_zero]
    constructor
    · intro h
      refine ⟨m / m', div_pos ms mt, fun i j hij => ?_⟩
      have := h i j
      rw [euclid_eq _ hij, euclid_eq _ hij] at this
      field_simp at this ⊢
      linarith
    · rintro ⟨a, ha, h⟩ i j
      have hmm : m = a * m' := by
        rw [hm, hm', ← mul_div_assoc, Finset.mul_sum]
        congr 1
        refine Finset.sum_congr rfl fun ij hij => ?_
        have hne : ij.1 ≠ ij.2 := by simpa [pairs] using hij
        rw [euclid_eq _ hne, euclid_eq _ hne, h _ _ hne]
      by_cases hij : i = j
      · rw [hij, euclid_self, euclid_self]; simp
      · rw [euclid_eq _ hij, euclid_eq _ hij, h _ _ hij, hmm]
        have := mt.ne'
        have := ha.ne'
        field_simp
        ring

example : ∃ x, distanceForward 1 false (fun (n : Fin 3) (_ : Fin 1) => (n : ℝ)) (fun (n : Fin 3) (_ : Fin 1) => 2 * (n : ℝ)) = some x ∧ 0 ≤ x :=
  let ⟨x, h, h0, _⟩ := C63_distance (by norm_num) one_pos false _ _
  ⟨x, h, h0⟩

/-- With all distances at least `1e-6`, `DistanceWiseRKD` is zero exactly when the student's samples
are similar, in the sense of geometry, to the teacher's. Missing: smaller distances, see
`C63_distance_collapse_violated`. -/
theorem C63_distance_similar_partial {N D D' : ℕ} (hN : 2 ≤ N) {w : ℝ} (hw : 0 < w) (s : Feat N D) (t : Feat N D')
    (hs : ∀ i j, i ≠ j → 1 / 10 ^ 6 ≤ Real.sqrt (∑ d, (s i d - s j d) ^ 2)) (ht : ∀ i j, i ≠ j → 1 / 10 ^ 6 ≤ Real.sqrt (∑ d, (t i d - t j d) ^ 2)) :
    distanceForward w false s t = some 0 ↔
      ∃ a, 0 < a ∧ ∀ i j, Real.sqrt (∑ d, (s i d - s j d) ^ 2) = a * Real.sqrt (∑ d, (t i d - t j d) ^ 2) := by
  obtain ⟨x, h1, h2, h3⟩ := C63_distance hN hw false s t
  rw [h1, Option.some.injEq, h3]
  refine exists_congr fun a => and_congr_right fun _ => ⟨fun h i j => ?_, fun h i j hij => ?_⟩
  · by_cases hij : i = j
    · simp [hij]
    · have := h i j hij
      simpa only [gap, seen, Bool.false_eq_true, if_false, max_eq_left (hs i j hij), max_eq_left (ht i j hij)] using this
  · simpa only [gap, seen, Bool.false_eq_true, if_false, max_eq_left (hs i j hij), max_eq_left (ht i j hij)] using h i j

example : distanceForward 1 false (fun (n : Fin 2) (_ : Fin 1) => (n : ℝ)) (fun (n : Fin 2) (_ : Fin 1) => 2 * (n : ℝ)) = some 0 := by
  refine (C63_distance_similar_partial le_rfl one_pos _ _ ?_ ?_).2 ⟨1 / 2, by norm_num, ?_⟩ <;> intro i j
  · fin_cases i <;> fin_cases j <;> simp
    norm_num
    norm_num
  · fin_cases i <;> fin_cases j <;> simp <;> norm_num
  · fin_cases i <;> fin_cases j <;> simp

/-- DISAGREEMENT: a student that maps all samples to one point has no loss with respect to any
teacher whose samples are equally far from each other: the vanishing distances are replaced by
`1e-6` and then divided by their mean. -/
theorem C63_distance_collapse_violated {N D D' : ℕ} (hN : 2 ≤ N) {w : ℝ} (hw : 0 < w) (b : Bool) (s : Feat N D) (t : Feat N D')
    (hs : ∀ i j, s i = s j) (r : ℝ) (ht : ∀ i j, i ≠ j → gap (seen b t i) (seen b t j) = r) : distanceForward w b s t = some 0 := by
  obtain ⟨x, h1, h2, h3⟩ := C63_distance hN hw b s t
  have h01 : (⟨0, by omega⟩ : Fin N) ≠ ⟨1, by omega⟩ := by simp
  have hr : 0 < r := by rw [← ht _ _ h01]; exact gap_pos _ _
  rw [h1, h3.2 ⟨1 / 10 ^ 6 / r, by positivity, fun i j hij => ?_⟩]
  rw [ht i j hij]
  have e : seen b s i = seen b s j := by
    funext d; unfold seen; rw [hs i j]
  rw [e]
  have : gap (seen b s j) (seen b s j) = 1 / 10 ^ 6 := by
    unfold gap; simp
  rw [this]; field_simp

example : distanceForward 1 false (fun (_ : Fin 3) (_ : Fin 1) => (5 : ℝ)) (fun (n d : Fin 3) => if n = d then (1 : ℝ) else 0) = some 0 :=
  C63_distance_collapse_violated (by norm_num) one_pos false _ _ (fun _ _ => rfl) (gap ![1, 0, 0] ![0, 1, 0]) (by
    intro i j h
    unfold gap seen
    refine congrArg (fun x : ℝ => max (Real.sqrt x) (1 / 10 ^ 6)) ?_
    fin_cases i <;> fin_cases j <;> simp [Fin.sum_univ_succ] at h ⊢)

/-- DISAGREEMENT: with two samples `DistanceWiseRKD` is zero whatever the predictions are. -/
theorem C63_distance_pair_violated {D D' : ℕ} {w : ℝ} (hw : 0 < w) (b : Bool) (s : Feat 2 D) (t : Feat 2 D') :
    distanceForward w b s t = some 0 := by
  obtain ⟨x, h1, h2, h3⟩ := C63_distance le_rfl hw b s t
  have sym : ∀ {D : ℕ} (x y : Fin D → ℝ), gap x y = gap y x := by
    intro D x y; unfold gap; congr 2; exact Finset.sum_congr rfl fun d _ => by ring
  rw [h1, h3.2 ⟨gap (seen b s 0) (seen b s 1) / gap (seen b t 0) (seen b t 1), div_pos (gap_pos _ _) (gap_pos _ _), fun i j hij => ?_⟩]
  have ht := (gap_pos (seen b t 0) (seen b t 1)).ne'
  have : (i = 0 ∧ j = 1) ∨ (i = 1 ∧ j = 0) := by omega
  rcases this with ⟨rfl, rfl⟩ | ⟨rfl, rfl⟩
  · field_simp
  · rw [sym (seen b s 1), sym (seen b t 1)]; field_simp

/-- DISAGREEMENT: with fewer than two samples, and only then, `DistanceWiseRKD` is not a number. -/
theorem C63_distance_single_violated {N D D' : ℕ} (w : ℝ) (b : Bool) (s : Feat N D) (t : Feat N D') :
    distanceForward w b s t = none ↔ N < 2 := by
  constructor
  · intro h
    by_contra hN
    rw [distance_value (not_lt.1 hN)] at h
    exact absurd h (by simp)
  · intro h
    unfold distanceForward
    simp only [meanPositive_eq, if_pos h]

/-- `AngleWiseRKD`: the mean over all triples of samples of the smooth loss of the difference of the
cosines; with a positive weight it is zero exactly when all cosines agree. -/
theorem C63_angle_value {N D D' : ℕ} (w : ℝ) (b : Bool) (s : Feat N D) (t : Feat N D') :
    angleForward w b s t = (∑ i, ∑ j, ∑ k, huber (angleCos (seen b s) i j k - angleCos (seen b t) i j k)) / N ^ 3 * w ∧
      (0 < w → 0 < N → (angleForward w b s t = 0 ↔ ∀ i j k, angleCos (seen b s) i j k = angleCos (seen b t) i j k)) := by
  have e : angleForward w b s t = (∑ i, ∑ j, ∑ k, huber (angleCos (seen b s) i j k - angleCos (seen b t) i j k)) / N ^ 3 * w := by
    unfold angleForward
    simp only [prepare_seen, cosine_corner, smooth_huber]
    rw [show (N : ℝ) * N * N = N ^ 3 by ring]
    rfl
  refine ⟨e, fun hw hN => ?_⟩
  have hNR : (0 : ℝ) < N := Nat.cast_pos.2 hN
  have h0 : ∀ x, 0 ≤ huber x := fun x => smooth_huber x ▸ smooth_nonneg x
  rw [e, mul_eq_zero, or_iff_left hw.ne', div_eq_zero_iff, or_iff_left (by positivity), sum2_zero _ fun _ _ => Finset.sum_nonneg fun _ _ => h0 _]
  refine forall_congr' fun i => forall_congr' fun j => ?_
  rw [Finset.sum_eq_zero_iff_of_nonneg fun _ _ => h0 _]
  simp only [Finset.mem_univ, true_implies, ← smooth_huber, smooth_zero, sub_eq_zero]

example : (0 : ℝ) < 1 ∧ 0 < 3 := by norm_num

/-- `AngleWiseRKD` lies between zero and three halves (times the weight). -/
theorem C63_angle_range {N D D' : ℕ} [NeZero N] {w : ℝ} (hw : 0 ≤ w) (b : Bool) (s : Feat N D) (t : Feat N D') :
    0 ≤ angleForward w b s t ∧ angleForward w b s t ≤ 3 / 2 * w := by
  have hN : (0 : ℝ) < N := Nat.cast_pos.2 (Nat.pos_of_ne_zero (NeZero.ne N))
  unfold angleForward
  constructor
  · have : 0 ≤ ∑ i, ∑ j, ∑ k, smooth (cosine (prepare b s) i j k - cosine (prepare b t) i j k) :=
      Finset.sum_nonneg fun _ _ => Finset.sum_nonneg fun _ _ => Finset.sum_nonneg fun _ _ => smooth_nonneg _
    positivity
  · refine mul_le_mul_of_nonneg_right ?_ hw
    rw [div_le_iff₀ (by positivity)]
    calc ∑ i, ∑ j, ∑ k, smooth (cosine (prepare b s) i j k - cosine (prepare b t) i j k)
        ≤ ∑ _i : Fin N, ∑ _j : Fin N, ∑ _k : Fin N, (3 / 2 : ℝ) := by
          refine Finset.sum_le_sum fun i _ => Finset.sum_le_sum fun j _ => Finset.sum_le_sum fun k _ => smooth_le ?_
          have h1 := cosine_abs_le (prepare b s) i j k
          have h2 := cosine_abs_le (prepare b t) i j k
          exact (abs_sub _ _).trans (by linarith)
      _ = 3 / 2 * (N * N * N) := by simp; ring

example : 0 ≤ angleForward 2 true (fun (n : Fin 3) (d : Fin 2) => (n : ℝ) * d) (fun (n : Fin 3) (_ : Fin 1) => (n : ℝ)) :=
  (C63_angle_range (by norm_num) true _ _).1

/-- If the student's samples are similar to the teacher's, all inner products being multiplied by one
positive number, then `AngleWiseRKD` is zero, as long as samples that differ are at least `1e-12`
apart. Missing: closer samples. -/
theorem C63_angle_similar_partial {N D D' : ℕ} (w : ℝ) (s : Feat N D) (t : Feat N D') (a : ℝ) (ha : 0 < a)
    (h : ∀ i j k, corner s i j k = a ^ 2 * corner t i j k)
    (hs : ∀ i j, corner s i j j ≠ 0 → 1 / 10 ^ 12 ≤ Real.sqrt (corner s i j j))
    (ht : ∀ i j, corner t i j j ≠ 0 → 1 / 10 ^ 12 ≤ Real.sqrt (corner t i j j)) : angleForward w false s t = 0 := by
  unfold angleForward
  have hp : ∀ {D : ℕ} (x : Feat N D), prepare false x = x := fun _ => rfl
  simp only [hp]
  have hz : ∀ {D : ℕ} (x : Feat N D) (i j k : Fin N), corner x i j j = 0 → corner x i j k = 0 := by
    intro D x i j k e
    unfold corner at e
    rw [Finset.sum_eq_zero_iff_of_nonneg fun d _ => mul_self_nonneg _] at e
    exact Finset.sum_eq_zero fun d hd => by rw [mul_self_eq_zero.1 (e d hd), zero_mul]
  have hsym : ∀ {D : ℕ} (x : Feat N D) (i j k : Fin N), corner x i j k = corner x i k j := by
    intro D x i j k; exact Finset.sum_congr rfl fun d _ => mul_comm _ _
  have key : ∀ i j k, cosine s i j k = cosine t i j k := by
    intro i j k
    rw [cosine_corner, cosine_corner]
    by_cases hj : corner t i j j = 0
    · rw [h, hz t i j k hj]; simp
    · by_cases hk : corner t i k k = 0
      · rw [h, hsym t, hz t i k j hk]; simp
      · have ha2 : a ^ 2 ≠ 0 := by positivity
        have hsj : corner s i j j ≠ 0 := by rw [h]; exact mul_ne_zero ha2 hj
        have hsk : corner s i k k ≠ 0 := by rw [h]; exact mul_ne_zero ha2 hk
        rw [max_eq_left (hs i j hsj), max_eq_left (hs i k hsk), max_eq_left (ht i j hj), max_eq_left (ht i k hk)]
        rw [h i j k, h i j j, h i k k, Real.sqrt_mul (sq_nonneg a), Real.sqrt_mul (sq_nonneg a), Real.sqrt_sq ha.le]
        have h1 : Real.sqrt (corner t i j j) ≠ 0 := ne_of_gt (lt_of_lt_of_le (by positivity) (ht i j hj))
        have h2 : Real.sqrt (corner t i k k) ≠ 0 := ne_of_gt (lt_of_lt_of_le (by positivity) (ht i k hk))
        have := ha.ne'
        field_simp
  have : ∀ i j k, smooth (cosine s i j k - cosine t i j k) = 0 := fun i j k => (smooth_zero _).2 (by rw [key]; ring)
  simp [this]

example : angleForward 1 false (fun (n : Fin 2) (_ : Fin 1) => 3 * (n : ℝ)) (fun (n : Fin 2) (_ : Fin 1) => (n : ℝ)) = 0 := by
  refine C63_angle_similar_partial 1 _ _ 3 (by norm_num) ?_ ?_ ?_
  · intro i j k; unfold corner; simp; ring
  · intro i j; fin_cases i <;> fin_cases j <;> simp [corner] <;> norm_num
  · intro i j; fin_cases i <;> fin_cases j <;> simp [corner] <;> norm_num

/-- `DISTLoss` with weights that are not negative lies between zero and `2·τ²·(inter + intra)`, and
never reaches either end. -/
theorem C63_dist_range {N C : ℕ} (hN : 0 < N) (hC : 0 < C) (k : Dist) (ht : k.tau ≠ 0) (h1 : 0 ≤ k.inter) (h2 : 0 ≤ k.intra)
    (h3 : 0 < k.inter + k.intra) (hw : 0 < k.weight) (s t : Feat N C) :
    0 < distForward k s t ∧ distForward k s t < 2 * k.tau ^ 2 * (k.inter + k.intra) * k.weight := by
  rw [dist_eq]
  obtain ⟨a1, a2⟩ := inter_range hN (probs k.tau s) (probs k.tau t)
  obtain ⟨b1, b2⟩ := inter_range hC (fun c n => probs k.tau s n c) (fun c n => probs k.tau t n c)
  generalize inter (probs k.tau s) (probs k.tau t) = x at *
  generalize inter (fun c n => probs k.tau s n c) (fun c n => probs k.tau t n c) = y at *
  have hT : 0 < k.tau ^ 2 := by positivity
  have hx : 0 < k.tau ^ 2 * x := mul_pos hT a1
  have hy : 0 < k.tau ^ 2 * y := mul_pos hT b1
  have hx' : 0 < k.tau ^ 2 * (2 - x) := mul_pos hT (by linarith)
  have hy' : 0 < k.tau ^ 2 * (2 - y) := mul_pos hT (by linarith)
  have pos : ∀ p q : ℝ, 0 < p → 0 < q → 0 < k.inter * p + k.intra * q := by
    intro p q hp hq
    rcases h1.lt_or_eq with h | h
    · have := mul_pos h hp; have := mul_nonneg h2 hq.le; linarith
    · have : 0 < k.intra := by linarith
      have := mul_pos this hq; rw [← h]; linarith
  refine ⟨mul_pos (pos _ _ hx hy) hw, mul_lt_mul_of_pos_right ?_ hw⟩
  have := pos _ _ hx' hy'
  nlinarith

example : 0 < distForward ⟨1, 1, 4, 1⟩ (fun (n : Fin 2) (c : Fin 3) => (n : ℝ) * c) (fun _ c => (c : ℝ)) :=
  (C63_dist_range (by norm_num) (by norm_num) _ (by norm_num) (by norm_num) (by norm_num) (by norm_num) (by norm_num) _ _).1

/-- DISAGREEMENT: `DISTLoss` is not zero for a student equal to its teacher: each correlation of
equal rows falls short of one by `1e-8 / (spread + 1e-8)`. -/
theorem C63_dist_identical_violated {N C : ℕ} (hN : 0 < N) (hC : 0 < C) (k : Dist) (z : Feat N C) :
    distForward k z z = (k.inter * (k.tau ^ 2 * ((∑ n, 1 / 10 ^ 8 / (spread (probs k.tau z n) + 1 / 10 ^ 8)) / N))
      + k.intra * (k.tau ^ 2 * ((∑ c, 1 / 10 ^ 8 / (spread (fun n => probs k.tau z n c) + 1 / 10 ^ 8)) / C))) * k.weight := by
  rw [dist_eq, inter_self hN, inter_self hC]

/-- DISAGREEMENT: with one sample in the batch the part of `DISTLoss` over samples is `τ²` whatever
the scores are. -/
theorem C63_dist_single_violated {C : ℕ} (hC : 0 < C) (k : Dist) (h : k.inter = 0) (s t : Feat 1 C) :
    distForward k s t = k.intra * k.tau ^ 2 * k.weight := by
  rw [dist_eq, h]
  have z : ∀ x : Fin 1 → ℝ, ∀ d, centred x d = 0 := by
    intro x d; unfold centred; rw [Subsingleton.elim d 0]; simp
  have : ∀ a b : Feat C 1, inter a b = 1 := by
    intro a b; unfold inter pearson; simp [z]
  rw [this]; ring

/-- DISAGREEMENT: if student and teacher both find all classes equally likely, so that they agree,
`DISTLoss` is `τ²·(inter + intra)`, half of its upper bound. -/
theorem C63_dist_uniform_violated {N C : ℕ} (k : Dist) (s t : Feat N C) (hs : ∀ n c c', s n c = s n c') (ht : ∀ n c c', t n c = t n c') :
    distForward k s t = k.tau ^ 2 * (k.inter + k.intra) * k.weight := by
  have u : ∀ z : Feat N C, (∀ n c c', z n c = z n c') → probs k.tau z = fun _ _ => 1 / (C : ℝ) := by
    intro z hz
    funext n c
    unfold probs
    rw [Finset.sum_congr rfl fun e _ => show Real.exp (z n e / k.tau) = Real.exp (z n c / k.tau) by rw [hz n e c]]
    have := (Real.exp_pos (z n c / k.tau)).ne'
    have : (C : ℝ) ≠ 0 := Nat.cast_ne_zero.2 (Nat.pos_of_ne_zero fun e => by subst e; exact c.elim0).ne'
    simp
    field_simp
  have z : ∀ {D : ℕ} (v : ℝ) (d : Fin D), centred (fun _ : Fin D => v) d = 0 := by
    intro D v d; unfold centred
    have : (D : ℝ) ≠ 0 := Nat.cast_ne_zero.2 (Nat.pos_of_ne_zero fun e => by subst e; exact d.elim0).ne'
    simp
    field_simp
    ring
  have i : ∀ {A B : ℕ} (v : ℝ), inter (fun (_ : Fin A) (_ : Fin B) => v) (fun _ _ => v) = 1 := by
    intro A B v; unfold inter pearson; simp [z]
  rw [dist_eq, u s hs, u t ht, i, i]; ring

/-- Adding a constant to the scores of a sample of the student or of the teacher does not change
`DISTLoss`, and it is symmetric in the two. -/
theorem C63_dist_shift {N C : ℕ} (k : Dist) (s t : Feat N C) (a b : Fin N → ℝ) :
    distForward k (fun n c => s n c + a n) (fun n c => t n c + b n) = distForward k s t ∧ distForward k t s = distForward k s t := by
  have p : ∀ (z : Feat N C) (a : Fin N → ℝ), probs k.tau (fun n c => z n c + a n) = probs k.tau z := by
    intro z a
    funext n c
    unfold probs
    simp only [add_div, Real.exp_add]
    rw [← Finset.sum_mul, mul_div_mul_right _ _ (Real.exp_pos _).ne']
  have q : ∀ {D : ℕ} (x y : Fin D → ℝ), pearson x y = pearson y x := by
    intro D x y; unfold pearson
    rw [mul_comm (FeatureLoss.norm _)]
    congr 1
    exact Finset.sum_congr rfl fun d _ => mul_comm _ _
  have r : ∀ {A B : ℕ} (x y : Feat A B), inter x y = inter y x := by
    intro A B x y; unfold inter; simp only [q]
  constructor
  · rw [dist_eq, dist_eq, p, p]
  · rw [dist_eq, dist_eq, r, r fun c n => probs k.tau t n c]

/-! ### PKD -/

/-- `PKDLoss` on maps of one shape, for every number of levels: per channel the squares of the two
deviations divided by themselves plus `1e-6`, minus twice the covariance divided likewise, averaged
over the channels, times `(M-1)/(2M)` for `M` values per channel, summed over the levels. -/
theorem C63_pkd_value (w : ℝ) (resize : Map → ℕ → ℕ → Map) (b : Bool) (ss ts : List Map)
    (h : ∀ st ∈ ss.zip ts, SameShape st.1 st.2 ∧ 2 ≤ size st.1 ∧ 0 < st.1.c) :
    pkdForward w resize b ss ts = .ok (some (((ss.zip ts).map fun st => level st.1 st.2).sum * w)) := by
  unfold pkdForward; rw [sum_ok resize b _ h]; rfl

/-- `PKDLoss` is never negative, and zero exactly when in each channel the deviations from the mean,
divided by the standard deviation plus `1e-6`, agree. -/
theorem C63_pkd_zero {w : ℝ} (hw : 0 < w) (resize : Map → ℕ → ℕ → Map) (b : Bool) (s t : Map) (h : SameShape s t) (hM : 2 ≤ size s) (hc : 0 < s.c) :
    ∃ x, pkdForward w resize b [s] [t] = .ok (some x) ∧ 0 ≤ x ∧ (x = 0 ↔ ∀ c < s.c, ∀ m < size s,
      (s.at' c m - avg s c) / (sigma s c + 1 / 10 ^ 6) = (t.at' c m - avg t c) / (sigma t c + 1 / 10 ^ 6)) := by
  have hcR : (0 : ℝ) < s.c := Nat.cast_pos.2 hc
  have h1 : (1 : ℝ) < size s := by exact_mod_cast hM
  have e : pkdForward w resize b [s] [t] = .ok ((pkdTerm s t).map fun x => (x + 0) * w) := by
    unfold pkdForward
    show (pkdSum resize b [(s, t)]).map _ = _
    unfold pkdSum
    rw [level_ok resize b h, term_eq h hM hc]
    rfl
  have e2 : pkdTerm s t = some ((∑ c ∈ Finset.range s.c, ∑ m ∈ Finset.range (size s), (s.normed c m - t.normed c m) ^ 2) / (s.c * (size s : ℝ)) / 2) := by
    unfold pkdTerm
    have hcount : s.count = size s := rfl
    rw [hcount, if_neg (by omega)]
  rw [e2] at e
  refine ⟨_, e, ?_, ?_⟩
  · have : 0 ≤ ∑ c ∈ Finset.range s.c, ∑ m ∈ Finset.range (size s), (s.normed c m - t.normed c m) ^ 2 :=
      Finset.sum_nonneg fun _ _ => Finset.sum_nonneg fun _ _ => sq_nonneg _
    positivity
  · rw [mul_eq_zero, or_iff_left hw.ne', add_zero, div_eq_zero_iff, or_iff_left two_ne_zero, div_eq_zero_iff,
      or_iff_left (by have : (0 : ℝ) < size s := by linarith
                      positivity),
      Finset.sum_eq_zero_iff_of_nonneg fun _ _ => Finset.sum_nonneg fun _ _ => sq_nonneg _]
    constructor
    · intro g c hc' m hm
      have := g c (Finset.mem_range.2 hc')
      rw [Finset.sum_eq_zero_iff_of_nonneg fun _ _ => sq_nonneg _] at this
      have := this m (Finset.mem_range.2 hm)
      rw [normed_eq, normed_eq, sq_eq_zero_iff, sub_eq_zero] at this
      exact this
    · intro g c hc'
      refine Finset.sum_eq_zero fun m hm => ?_
      rw [normed_eq, normed_eq, g c (Finset.mem_range.1 hc') m (Finset.mem_range.1 hm)]
      simp

example : ∃ x, pkdForward 1 (fun x _ _ => x) true [⟨1, 1, 1, 2, fun _ m => m⟩] [⟨1, 1, 1, 2, fun _ m => 3 * m⟩] = .ok (some x) ∧ 0 ≤ x :=
  let ⟨x, h, h0, _⟩ := C63_pkd_zero one_pos (fun x _ _ => x) true ⟨1, 1, 1, 2, fun _ m => m⟩ ⟨1, 1, 1, 2, fun _ m => 3 * m⟩
    ⟨rfl, rfl, rfl, rfl⟩ (by decide) (by decide)
  ⟨x, h, h0⟩

/-- Adding a constant to each channel of the student and of the teacher does not change `PKDLoss`. -/
theorem C63_pkd_shift (w : ℝ) (resize : Map → ℕ → ℕ → Map) (b : Bool) (s t : Map) (h : SameShape s t) (hM : 2 ≤ size s) (hc : 0 < s.c) (k l : ℕ → ℝ) :
    pkdForward w resize b [{ s with at' := fun c m => s.at' c m + k c }] [{ t with at' := fun c m => t.at' c m + l c }]
      = pkdForward w resize b [s] [t] := by
  rw [C63_pkd_value, C63_pkd_value]
  · have hs : 0 < size s := by omega
    have ht : size t = size s := (same_size h).symm
    have e1 := fun c => sigma_affine s hs zero_le_one k c
    have e2 := fun c => sigma_affine t (by omega) zero_le_one l c
    have e3 := fun c => cov_affine s t hs ht 1 1 k l c
    simp only [one_mul] at e1 e2 e3
    simp only [List.zip_cons_cons, List.zip_nil_left, List.map_cons, List.map_nil, level, e1, e2, e3]
    rfl
  · simpa using ⟨h, hM, hc⟩
  · simpa using ⟨h, hM, hc⟩

/-- DISAGREEMENT: the comment in the code calls `PKDLoss` equivalent to one minus the correlation,
but a student that is a positive multiple of its teacher, thus perfectly correlated, has a positive
loss: the added `1e-6` makes the loss depend on the scale. -/
theorem C63_pkd_scale_violated {w : ℝ} (hw : 0 < w) (resize : Map → ℕ → ℕ → Map) (b : Bool) (t : Map) (hM : 2 ≤ size t)
    (c : ℕ) (hc : c < t.c) (hv : 0 < sigma t c) (a : ℝ) (ha : 0 < a) (ha1 : a ≠ 1) :
    ∃ x, pkdForward w resize b [{ t with at' := fun c m => a * t.at' c m }] [t] = .ok (some x) ∧ 0 < x := by
  have h0 : (fun c m => a * t.at' c m) = (fun c m => a * t.at' c m + (fun _ => (0 : ℝ)) c) := by
    funext c m; simp
  obtain ⟨x, e, hx, hz⟩ := C63_pkd_zero hw resize b { t with at' := fun c m => a * t.at' c m } t ⟨rfl, rfl, rfl, rfl⟩ hM (by show 0 < t.c; omega)
  refine ⟨x, e, lt_of_le_of_ne hx fun hx0 => ?_⟩
  have g := hz.1 hx0.symm c hc
  rw [h0, sigma_affine t (by omega) ha.le, avg_affine t (by omega)] at g
  have ne : ∃ m < size t, t.at' c m - avg t c ≠ 0 := by
    by_contra hn
    push Not at hn
    have := sq_sum t hM c
    rw [Finset.sum_eq_zero fun m hm => by rw [hn m (Finset.mem_range.1 hm)]; simp] at this
    have h1 : (1 : ℝ) < size t := by exact_mod_cast hM
    have : 0 < ((size t : ℝ) - 1) * sigma t c ^ 2 := mul_pos (by linarith) (by positivity)
    linarith
  obtain ⟨m, hm, hne⟩ := ne
  have := g m hm
  have p1 : 0 < a * sigma t c + 1 / 10 ^ 6 := by positivity
  have p2 := sigma_eps t c
  rw [div_eq_div_iff p1.ne' p2.ne'] at this
  have q : (t.at' c m - avg t c) * (a - 1) = 0 := by
    simp only [add_zero] at this
    linear_combination (10 ^ 6 : ℝ) * this
  rcases mul_eq_zero.1 q with q | q
  · exact hne q
  · exact ha1 (by linarith)

example : ∃ x, pkdForward 1 (fun x _ _ => x) true [⟨1, 1, 1, 2, fun _ m => 3 * m⟩] [⟨1, 1, 1, 2, fun _ m => m⟩] = .ok (some x) ∧ 0 < x :=
  C63_pkd_scale_violated one_pos _ true ⟨1, 1, 1, 2, fun _ m => m⟩ (by decide) 0 (by decide)
    (by unfold sigma cov avg size; rw [Real.sqrt_pos]; simp [Finset.sum_range_succ]; norm_num) 3 (by norm_num) (by norm_num)

/-- DISAGREEMENT: a student opposite to its teacher in every channel has correlation minus one, but
its loss is less than the documented `1 - r = 2`: each channel gives at most `2·(M-1)/M`. -/
theorem C63_pkd_opposite_violated (resize : Map → ℕ → ℕ → Map) (b : Bool) (t : Map) (hM : 2 ≤ size t) (hc : 0 < t.c) :
    ∃ x, pkdForward 1 resize b [{ t with at' := fun c m => - t.at' c m }] [t] = .ok (some x) ∧ x ≤ 2 * ((size t : ℝ) - 1) / size t := by
  have h1 : (1 : ℝ) < size t := by exact_mod_cast hM
  have hcR : (0 : ℝ) < t.c := Nat.cast_pos.2 hc
  have h0 : (fun c m => - t.at' c m) = (fun c m => (-1) * t.at' c m + (fun _ => (0 : ℝ)) c) := by
    funext c m; simp
  have h2 : t = { t with at' := fun c m => 1 * t.at' c m + (fun _ => (0 : ℝ)) c } := by simp
  have e1 : ∀ c, cov { t with at' := fun c m => - t.at' c m } t c = - cov t t c := by
    intro c
    have := cov_affine t t (by omega) rfl (-1) 1 (fun _ => 0) (fun _ => 0) c
    rw [h0]
    simpa using this
  have e2 : ∀ c, sigma { t with at' := fun c m => - t.at' c m } c = sigma t c := by
    intro c
    unfold sigma
    rw [h0, cov_affine t t (by omega) rfl]; simp
  refine ⟨_, C63_pkd_value _ _ _ _ _ (by simpa using ⟨⟨rfl, rfl, rfl, rfl⟩, hM, hc⟩), ?_⟩
  simp only [List.zip_cons_cons, List.zip_nil_left, List.map_cons, List.map_nil, level, e1, e2, List.sum_cons, List.sum_nil, add_zero, mul_one]
  have bound : ∀ c, (sigma t c / (sigma t c + 1 / 10 ^ 6)) ^ 2 + (sigma t c / (sigma t c + 1 / 10 ^ 6)) ^ 2
      - 2 * (- cov t t c / ((sigma t c + 1 / 10 ^ 6) * (sigma t c + 1 / 10 ^ 6))) ≤ 4 := by
    intro c
    have e : cov t t c = sigma t c ^ 2 := by rw [sigma, Real.sq_sqrt (cov_self_nonneg t hM c)]
    have p := sigma_eps t c
    have s0 : 0 ≤ sigma t c := Real.sqrt_nonneg _
    rw [e]
    have : (sigma t c / (sigma t c + 1 / 10 ^ 6)) ^ 2 ≤ 1 := by
      apply pow_le_one₀ (by positivity)
      rw [div_le_one p]; linarith [(by positivity : (0 : ℝ) < 1 / 10 ^ 6)]
    have e' : - sigma t c ^ 2 / ((sigma t c + 1 / 10 ^ 6) * (sigma t c + 1 / 10 ^ 6)) = - (sigma t c / (sigma t c + 1 / 10 ^ 6)) ^ 2 := by
      rw [div_pow, pow_two (sigma t c + 1 / 10 ^ 6)]; ring
    rw [e']; linarith
  have sz : size { t with at' := fun c m => - t.at' c m } = size t := rfl
  rw [sz]
  have hs := Finset.sum_le_sum fun c (_ : c ∈ Finset.range t.c) => bound c
  have : (∑ c ∈ Finset.range t.c, ((sigma t c / (sigma t c + 1 / 10 ^ 6)) ^ 2 + (sigma t c / (sigma t c + 1 / 10 ^ 6)) ^ 2
      - 2 * (- cov t t c / ((sigma t c + 1 / 10 ^ 6) * (sigma t c + 1 / 10 ^ 6))))) / (t.c : ℝ) ≤ 4 := by
    rw [div_le_iff₀ hcR]
    refine hs.trans ?_
    simp; linarith
  have k : 0 ≤ ((size t : ℝ) - 1) / (2 * size t) := div_nonneg (by linarith) (by linarith)
  refine (mul_le_mul_of_nonneg_left this k).trans (le_of_eq ?_)
  have : (size t : ℝ) ≠ 0 := by linarith
  field_simp
  ring

example : 2 ≤ size ⟨1, 1, 1, 2, fun _ m => m⟩ ∧ 2 * ((2 : ℝ) - 1) / 2 < 2 := ⟨by decide, by norm_num⟩

/-- DISAGREEMENT: maps of one network beyond the number of maps of the other are ignored without a
message. -/
theorem C63_pkd_levels_violated (w : ℝ) (resize : Map → ℕ → ℕ → Map) (b : Bool) (ss ts more : List Map) (h : ss.length = ts.length) :
    pkdForward w resize b (ss ++ more) ts = pkdForward w resize b ss ts ∧ pkdForward w resize b ss (ts ++ more) = pkdForward w resize b ss ts := by
  unfold pkdForward
  have e1 : (ss ++ more).zip ts = ss.zip ts := by
    have := List.zip_append (l₁ := ss) (r₁ := more) (l₂ := ts) (r₂ := []) h
    simpa using this
  have e2 : ss.zip (ts ++ more) = ss.zip ts := by
    have := List.zip_append (l₁ := ss) (r₁ := []) (l₂ := ts) (r₂ := more) h
    simpa using this
  rw [e1, e2]
  exact ⟨rfl, rfl⟩

/-- DISAGREEMENT: maps of different size are resized only if the heights differ; equal heights with
different widths are refused. -/
theorem C63_pkd_width_violated (w : ℝ) (resize : Map → ℕ → ℕ → Map) (b : Bool) (s t : Map) (ss ts : List Map) (hh : s.h = t.h) (hw : s.w ≠ t.w) :
    pkdForward w resize b (s :: ss) (t :: ts) = .error .assertion := by
  have e : pkdLevel resize b s t = .error .assertion := by
    unfold pkdLevel
    rw [if_neg (not_not.2 hh)]
    exact if_neg fun g => hw g.2.2.2
  unfold pkdForward
  rw [List.zip_cons_cons]
  unfold pkdSum
  rw [e]; rfl

example : pkdForward 1 (fun x h w => { x with h := h, w := w }) true [⟨1, 1, 4, 8, fun _ m => m⟩] [⟨1, 1, 4, 4, fun _ m => m⟩] = .error .assertion :=
  C63_pkd_width_violated _ _ _ _ _ _ _ rfl (by decide)

/-- If the heights differ, the loss is that of the maps after resizing the student's, or with
`resize_stu=False` the teacher's, to the size of the other. -/
theorem C63_pkd_resize (w : ℝ) (resize : Map → ℕ → ℕ → Map) (b : Bool) (s t : Map) (hh : s.h ≠ t.h)
    (hr : ∀ x h w, (resize x h w).n = x.n ∧ (resize x h w).c = x.c ∧ (resize x h w).h = h ∧ (resize x h w).w = w) :
    pkdForward w resize b [s] [t] = if b then pkdForward w resize b [resize s t.h t.w] [t] else pkdForward w resize b [s] [resize t s.h s.w] := by
  have e : pkdLevel resize b s t = if b then pkdLevel resize b (resize s t.h t.w) t else pkdLevel resize b s (resize t s.h s.w) := by
    unfold pkdLevel
    rw [if_pos hh]
    cases b
    · simp [(hr t s.h s.w).2.2.1]
    · simp [(hr s t.h t.w).2.2.1]
  unfold pkdForward
  simp only [List.zip_cons_cons, List.zip_nil_left]
  unfold pkdSum
  rw [e]
  cases b <;> rfl

/-- With fewer than two values per channel, or without channels, `PKDLoss` is not a number. -/
theorem C63_pkd_nan (w : ℝ) (resize : Map → ℕ → ℕ → Map) (b : Bool) (s t : Map) (h : SameShape s t) :
    pkdForward w resize b [s] [t] = .ok none ↔ size s < 2 ∨ s.c = 0 := by
  constructor
  · intro g
    by_contra hn
    push Not at hn
    rw [C63_pkd_value] at g
    · simp at g
    · simpa using ⟨h, hn.1, Nat.pos_of_ne_zero hn.2⟩
  · intro g
    have : pkdTerm s t = none := if_pos g
    unfold pkdForward
    simp only [List.zip_cons_cons, List.zip_nil_left]
    unfold pkdSum
    rw [level_ok resize b h, this]
    rfl

end Verif.RelationLoss
