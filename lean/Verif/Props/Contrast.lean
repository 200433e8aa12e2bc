import Verif.Lemmas.Contrast

/-! C64: the contrastive loss and its memory. -/

namespace Verif.Contrast
open Verif

/-! ### Alias table -/

/-! ### C64 -/

/-- For weights that are not negative and sum to one or more, the coins of the alias table are
probabilities, it only names given outcomes, and it draws each outcome with exactly its share of the
weights. -/
theorem C64_alias (p : List ℚ) (h0 : ∀ x ∈ p, 0 ≤ x) (h1 : 1 ≤ p.sum) :
    (∀ k < p.length, 0 ≤ (build p).prob k ∧ (build p).prob k ≤ 1 ∧ ((build p).prob k < 1 → (build p).alias' k < p.length)) ∧
      ∀ j, (h : j < p.length) → chance (build p) p.length j = p[j] / p.sum := build_spec h0 h1

example : (∀ x ∈ [(1 : ℚ), 2, 3], 0 ≤ x) ∧ 1 ≤ [(1 : ℚ), 2, 3].sum ∧ chance (build [1, 2, 3]) 3 2 = 1 / 2 := by decide +kernel

/-- The memory draws all its rows with equal chance. -/
theorem C64_uniform (n j : ℕ) (h : j < n) : chance (build (List.replicate n 1)) n j = 1 / n := by
  have := (build_spec (p := List.replicate n 1) (by simp) (by simp; omega)).2 j (by simpa using h)
  simpa using this

/-- DISAGREEMENT: weights that sum to less than one are not scaled, and the outcomes are then drawn
neither with the given nor with the scaled chances. -/
theorem C64_alias_deficit_violated :
    chance (build [1 / 2, 1 / 4]) 2 0 = 3 / 4 ∧ chance (build [1 / 2, 1 / 4]) 2 1 = 1 / 4 ∧ (1 / 2 : ℚ) / (1 / 2 + 1 / 4) = 2 / 3 := by
  decide +kernel

/-! ### Memory -/

/-- One forward pass moves the rows of the samples in the batch towards their features, the first
memory towards the student's and the second towards the teacher's, and leaves all other rows alone.
If a sample occurs twice, its last occurrence counts. -/
theorem C64_update {B K n D : ℕ} (c : Cfg) (st : Memory n D) (fs ft : Fin B → Fin D → ℝ) (idx : Fin B → Fin n) (rows : Fin B → Fin (K + 1) → Fin n) :
    (∀ i, (∀ b, idx b ≠ i) → (memoryForward c st fs ft idx rows).1.v1 i = st.v1 i ∧ (memoryForward c st fs ft idx rows).1.v2 i = st.v2 i) ∧
    ∀ b v1 v2, (∀ b', b < b' → idx b' ≠ idx b) → st.v1 (idx b) = some v1 → st.v2 (idx b) = some v2 →
      (∃ d, c.momentum * v1 d + (1 - c.momentum) * fs b d ≠ 0) → (∃ d, c.momentum * v2 d + (1 - c.momentum) * ft b d ≠ 0) →
      (memoryForward c st fs ft idx rows).1.v1 (idx b) = some (towards c.momentum v1 (fs b)) ∧
        (memoryForward c st fs ft idx rows).1.v2 (idx b) = some (towards c.momentum v2 (ft b)) := by
  refine ⟨fun i h => ⟨update_untouched _ _ _ _ i h, update_untouched _ _ _ _ i h⟩, fun b v1 v2 h e1 e2 n1 n2 => ⟨?_, ?_⟩⟩
  · refine (update_last _ _ _ _ b h).trans ?_
    rw [e1, moved_some, if_neg (by push Not; exact n1)]
  · refine (update_last _ _ _ _ b h).trans ?_
    rw [e2, moved_some, if_neg (by push Not; exact n2)]

example : ∃ d : Fin 2, (1 / 2 : ℝ) * ![1, 0] d + (1 - 1 / 2) * ![0, 1] d ≠ 0 := ⟨0, by norm_num⟩

/-- After any history of forward passes, the rows of samples never seen are as they were at the
start, and the rows of samples seen have length one unless they are not numbers. -/
theorem C64_rows {n D : ℕ} (c : Cfg) (st : Memory n D) (l : List (Step n D)) (i : Fin n) :
    ((∀ s ∈ l, ∀ b, s.idx b ≠ i) → (run c st l).v1 i = st.v1 i ∧ (run c st l).v2 i = st.v2 i) ∧
    ((∃ s ∈ l, ∃ b, s.idx b = i) →
      ((run c st l).v1 i = none ∨ ∃ v, (run c st l).v1 i = some v ∧ ∑ d, v d ^ 2 = 1) ∧
      ((run c st l).v2 i = none ∨ ∃ v, (run c st l).v2 i = some v ∧ ∑ d, v d ^ 2 = 1)) := by
  induction l using List.reverseRecOn with
  | nil => exact ⟨fun _ => ⟨rfl, rfl⟩, fun ⟨s, hs, _⟩ => absurd hs (by simp)⟩
  | append_singleton l s ih =>
    have e : run c st (l ++ [s]) = (memoryForward c (run c st l) s.fs s.ft s.idx s.rows).1 := by
      unfold run; rw [List.foldl_append]; rfl
    rw [e]
    constructor
    · intro h
      obtain ⟨a, b⟩ := ih.1 fun s' hs' => h s' (by simp [hs'])
      have := (C64_update c (run c st l) s.fs s.ft s.idx s.rows).1 i (h s (by simp))
      exact ⟨this.1.trans a, this.2.trans b⟩
    · rintro ⟨s', hs', b, hb⟩
      have main : ∀ (v : Fin n → Row D) (f : Fin s.B → Fin D → ℝ),
          (s' ∈ l → v i = none ∨ ∃ u, v i = some u ∧ ∑ d, u d ^ 2 = 1) →
          update c.momentum v s.idx f i = none ∨ ∃ u, update c.momentum v s.idx f i = some u ∧ ∑ d, u d ^ 2 = 1 := by
        intro v f hv
        rcases update_cases c.momentum v s.idx f i with ⟨hn, e⟩ | ⟨b', _, e⟩
        · rw [e]
          refine hv ?_
          rcases List.mem_append.1 hs' with h | h
          · exact h
          · rw [List.mem_singleton] at h; subst h; exact absurd hb (hn b)
        · rw [e]; exact moved_unit _ _ _
      exact ⟨main _ _ fun h => (ih.2 ⟨s', h, b, hb⟩).1, main _ _ fun h => (ih.2 ⟨s', h, b, hb⟩).2⟩

/-- With a momentum below `1 / (1 + √3)`, features of length one and rows of length at most `√3` at the
start, as the constructor draws them, no row ever stops being a number. Missing: larger momenta, in
particular the default one half, see `C64_opposite_violated`. -/
theorem C64_finite_partial {n D : ℕ} (c : Cfg) (h0 : 0 ≤ c.momentum) (hm : c.momentum * Real.sqrt 3 < 1 - c.momentum) (st : Memory n D) (l : List (Step n D))
    (h1 : ∀ i, ∃ v, st.v1 i = some v ∧ ∑ d, v d ^ 2 ≤ 3) (h2 : ∀ i, ∃ v, st.v2 i = some v ∧ ∑ d, v d ^ 2 ≤ 3)
    (hl : ∀ s ∈ l, ∀ b, ∑ d, s.fs b d ^ 2 = 1 ∧ ∑ d, s.ft b d ^ 2 = 1) :
    (∀ i, ∃ v, (run c st l).v1 i = some v ∧ ∑ d, v d ^ 2 ≤ 3) ∧ ∀ i, ∃ v, (run c st l).v2 i = some v ∧ ∑ d, v d ^ 2 ≤ 3 := by
  have one : ∀ {B : ℕ} (v : Fin n → Row D) (idx : Fin B → Fin n) (f : Fin B → Fin D → ℝ), (∀ b, ∑ d, f b d ^ 2 = 1) →
      (∀ i, ∃ u, v i = some u ∧ ∑ d, u d ^ 2 ≤ 3) → ∀ i, ∃ u, update c.momentum v idx f i = some u ∧ ∑ d, u d ^ 2 ≤ 3 := by
    intro B v idx f hf hv i
    rcases update_cases c.momentum v idx f i with ⟨_, e⟩ | ⟨b, _, e⟩
    · rw [e]; exact hv i
    · rw [e]
      obtain ⟨u, hu, hu3⟩ := hv i
      rcases moved_unit c.momentum (v i) (f b) with g | ⟨u', g, g1⟩
      · rw [hu, moved_some, if_neg (by push Not; exact move_ne h0 hm hu3 (hf b))] at g
        exact absurd g (by simp)
      · exact ⟨u', g, by rw [g1]; norm_num⟩
  induction l generalizing st with
  | nil => exact ⟨h1, h2⟩
  | cons s l ih =>
    have := hl s (by simp)
    exact ih (memoryForward c st s.fs s.ft s.idx s.rows).1 (one _ _ _ (fun b => (this b).1) h1) (one _ _ _ (fun b => (this b).2) h2)
      fun s' hs' => hl s' (by simp [hs'])

example : (0.3 : ℝ) * Real.sqrt 3 < 1 - 0.3 := by
  have : Real.sqrt 3 < 2 := by rw [Real.sqrt_lt' (by norm_num)]; norm_num
  linarith

/-- DISAGREEMENT: with the default momentum of one half, a student feature opposite to the stored row
turns the row into values that are not numbers, and they stay in the memory for every further
history. -/
theorem C64_opposite_violated {B K n D : ℕ} (c : Cfg) (hm : c.momentum = 1 / 2) (st : Memory n D) (fs ft : Fin B → Fin D → ℝ) (idx : Fin B → Fin n)
    (rows : Fin B → Fin (K + 1) → Fin n) (b : Fin B) (hb : ∀ b', b < b' → idx b' ≠ idx b) (v : Fin D → ℝ) (hv : st.v1 (idx b) = some v)
    (hf : ∀ d, fs b d = - v d) (l : List (Step n D)) : (run c (memoryForward c st fs ft idx rows).1 l).v1 (idx b) = none := by
  refine (none_stays c _ l (idx b)).1 ?_
  refine (update_last _ _ _ _ b hb).trans ?_
  rw [hv, moved_some, if_pos]
  intro d; rw [hm, hf]; ring

example : (∀ d : Fin 2, (![-1, 0] : Fin 2 → ℝ) d = - (![1, 0] : Fin 2 → ℝ) d) := by
  intro d; fin_cases d <;> simp

/-! ### Scores -/

/-- In the first forward pass the normalisation constants become the mean score times the number of
rows; they are positive, so that the normalised scores are positive and have the mean `1 / n`. The
student is compared with the second memory and the teacher with the first, as they were before the
pass. -/
theorem C64_first {B K n D : ℕ} (hB : 0 < B) (hn : 0 < n) (c : Cfg) (v1 v2 : Fin n → Fin D → ℝ) (fs ft : Fin B → Fin D → ℝ) (idx : Fin B → Fin n)
    (rows : Fin B → Fin (K + 1) → Fin n) :
    let r := memoryForward c ⟨some (-1), some (-1), fun i => some (v1 i), fun i => some (v2 i)⟩ fs ft idx rows
    ∃ zs zt : ℝ, zs = mean (scores c.temperature v2 fs rows) * n ∧ zt = mean (scores c.temperature v1 ft rows) * n ∧
      r.1.zs = some zs ∧ r.1.zt = some zt ∧ 0 < zs ∧ 0 < zt ∧
      (∀ b k, r.2.1 b k = some (scores c.temperature v2 fs rows b k / zs)) ∧ (∀ b k, r.2.2 b k = some (scores c.temperature v1 ft rows b k / zt)) ∧
      mean (fun b k => scores c.temperature v2 fs rows b k / zs) = 1 / n ∧ mean (fun b k => scores c.temperature v1 ft rows b k / zt) = 1 / n := by
  have hBR : (0 : ℝ) < B := Nat.cast_pos.2 hB
  have hnR : (0 : ℝ) < n := Nat.cast_pos.2 hn
  have pos : ∀ (v : Fin n → Fin D → ℝ) (f : Fin B → Fin D → ℝ), 0 < mean (scores c.temperature v f rows) := by
    intro v f
    have : (0 : ℝ) < ((K + 1 : ℕ) : ℝ) := Nat.cast_pos.2 (Nat.succ_pos K)
    refine div_pos (Finset.sum_pos (fun b _ => Finset.sum_pos (fun k _ => Real.exp_pos _) ⟨0, Finset.mem_univ _⟩) ⟨⟨0, hB⟩, Finset.mem_univ _⟩) (by positivity)
  have hsum : ∀ (x : Fin B → Fin (K + 1) → ℝ) (z : ℝ), mean (fun b k => x b k / z) = mean x / z := by
    intro x z; unfold mean; simp only [← Finset.sum_div]; rw [div_right_comm]
  have e1 : constant n (some (-1)) (fun (b : Fin B) (k : Fin (K + 1)) => score c.temperature (some (v2 (rows b k))) (fs b)) =
      some (mean (scores c.temperature v2 fs rows) * n) := constant_first _ fun b k => rfl
  have e2 : constant n (some (-1)) (fun (b : Fin B) (k : Fin (K + 1)) => score c.temperature (some (v1 (rows b k))) (ft b)) =
      some (mean (scores c.temperature v1 ft rows) * n) := constant_first _ fun b k => rfl
  have p1 := pos v2 fs
  have p2 := pos v1 ft
  intro r
  refine ⟨_, _, rfl, rfl, e1, e2, by positivity, by positivity, fun b k => ?_, fun b k => ?_, ?_, ?_⟩
  · show divide (score c.temperature (some (v2 (rows b k))) (fs b)) (constant n (some (-1)) _) = _
    rw [e1]; rfl
  · show divide (score c.temperature (some (v1 (rows b k))) (ft b)) (constant n (some (-1)) _) = _
    rw [e2]; rfl
  · rw [hsum]; field_simp
  · rw [hsum]; field_simp

/-- Once positive, the normalisation constants are the same after every further history. -/
theorem C64_constant {n D : ℕ} (c : Cfg) (st : Memory n D) (zs zt : ℝ) (h1 : st.zs = some zs) (h2 : st.zt = some zt) (p1 : 0 < zs) (p2 : 0 < zt)
    (l : List (Step n D)) : (run c st l).zs = some zs ∧ (run c st l).zt = some zt := by
  induction l generalizing st with
  | nil => exact ⟨h1, h2⟩
  | cons s l ih =>
    exact ih (memoryForward c st s.fs s.ft s.idx s.rows).1 (constant_set h1 p1.le _) (constant_set h2 p2.le _)

/-- Scores in later passes: for rows of length at most `√3` and features of length one they lie
between `exp(-√3/T)` and `exp(√3/T)`, divided by the constant. -/
theorem C64_bounds {B K n D : ℕ} (c : Cfg) (hT : 0 < c.temperature) (zs zt : ℝ) (p1 : 0 < zs) (p2 : 0 < zt) (v1 v2 : Fin n → Fin D → ℝ)
    (h1 : ∀ i, ∑ d, v1 i d ^ 2 ≤ 3) (h2 : ∀ i, ∑ d, v2 i d ^ 2 ≤ 3) (fs ft : Fin B → Fin D → ℝ)
    (hs : ∀ b, ∑ d, fs b d ^ 2 = 1) (ht : ∀ b, ∑ d, ft b d ^ 2 = 1) (idx : Fin B → Fin n) (rows : Fin B → Fin (K + 1) → Fin n) (b : Fin B) (k : Fin (K + 1)) :
    let r := memoryForward c ⟨some zs, some zt, fun i => some (v1 i), fun i => some (v2 i)⟩ fs ft idx rows
    ∃ x y, r.2.1 b k = some x ∧ r.2.2 b k = some y ∧
      Real.exp (-Real.sqrt 3 / c.temperature) / zs ≤ x ∧ x ≤ Real.exp (Real.sqrt 3 / c.temperature) / zs ∧
      Real.exp (-Real.sqrt 3 / c.temperature) / zt ≤ y ∧ y ≤ Real.exp (Real.sqrt 3 / c.temperature) / zt := by
  have ab : ∀ v f : Fin D → ℝ, ∑ d, v d ^ 2 ≤ 3 → ∑ d, f d ^ 2 = 1 → |∑ d, v d * f d| ≤ Real.sqrt 3 := by
    intro v f hv hf
    apply Real.abs_le_sqrt
    have := Finset.sum_mul_sq_le_sq_mul_sq Finset.univ v f
    rw [hf, mul_one] at this
    exact this.trans hv
  have a1 := abs_le.1 (ab (v2 (rows b k)) (fs b) (h2 _) (hs b))
  have a2 := abs_le.1 (ab (v1 (rows b k)) (ft b) (h1 _) (ht b))
  have lo : ∀ x : ℝ, -Real.sqrt 3 ≤ x → ∀ z : ℝ, 0 < z → Real.exp (-Real.sqrt 3 / c.temperature) / z ≤ Real.exp (x / c.temperature) / z := fun x hx z hz =>
    div_le_div_of_nonneg_right (Real.exp_le_exp.2 (div_le_div_of_nonneg_right hx hT.le)) hz.le
  have hi : ∀ x : ℝ, x ≤ Real.sqrt 3 → ∀ z : ℝ, 0 < z → Real.exp (x / c.temperature) / z ≤ Real.exp (Real.sqrt 3 / c.temperature) / z := fun x hx z hz =>
    div_le_div_of_nonneg_right (Real.exp_le_exp.2 (div_le_div_of_nonneg_right hx hT.le)) hz.le
  intro r
  refine ⟨Real.exp ((∑ d, v2 (rows b k) d * fs b d) / c.temperature) / zs, Real.exp ((∑ d, v1 (rows b k) d * ft b d) / c.temperature) / zt, ?_, ?_,
    lo _ a1.1 _ p1, hi _ a1.2 _ p1, lo _ a2.1 _ p2, hi _ a2.2 _ p2⟩
  · show divide (score c.temperature (some (v2 (rows b k))) (fs b)) (constant n (some zs) _) = _
    rw [constant_set rfl p1.le]; rfl
  · show divide (score c.temperature (some (v1 (rows b k))) (ft b)) (constant n (some zt) _) = _
    rw [constant_set rfl p2.le]; rfl

example : ∑ d, (![1, 1] : Fin 2 → ℝ) d ^ 2 ≤ 3 := by simp [Fin.sum_univ_succ]; norm_num

/-! ### Loss -/

/-- `ContrastLoss`: the mean over the samples of the logistic losses of the positive and of the `K`
negative scores against the noise level `K / n`. -/
theorem C64_loss_value {B K n : ℕ} (hn : 0 < n) {eps : ℝ} (he : 0 ≤ eps) (x : Fin B → Fin (K + 1) → ℝ) (hx : ∀ b k, 0 < x b k) :
    contrastLoss n eps x = (∑ b, (Real.log (1 + (K / n + eps) / x b 0) + ∑ k : Fin K, Real.log (1 + (x b k.succ + eps) / (K / n)))) / B := by
  have hnR : (0 : ℝ) < n := Nat.cast_pos.2 hn
  unfold contrastLoss
  dsimp only
  refine congrArg (fun y : ℝ => y / B) ?_
  rw [Finset.sum_add_distrib, neg_add, ← Finset.sum_neg_distrib, ← Finset.sum_neg_distrib]
  refine congrArg₂ (· + ·) (Finset.sum_congr rfl fun b _ => ?_) (Finset.sum_congr rfl fun b _ => ?_)
  · rw [← Real.log_inv, inv_div, mul_one_div]
    have := (hx b 0).ne'
    refine congrArg Real.log ?_
    field_simp
  · rw [← Finset.sum_neg_distrib]
    refine Finset.sum_congr rfl fun k _ => ?_
    have hK : (0 : ℝ) < K := Nat.cast_pos.2 (Nat.pos_of_ne_zero fun e => by subst e; exact k.elim0)
    rw [← Real.log_inv, inv_div, mul_one_div]
    refine congrArg Real.log ?_
    field_simp
    ring

/-- `ContrastLoss` of positive scores is positive; it does not grow when positive scores grow and
negative scores shrink. -/
theorem C64_loss_monotone {B K n : ℕ} (hn : 0 < n) (hB : 0 < B) (hK : 0 < K) {eps : ℝ} (he : 0 ≤ eps) (x y : Fin B → Fin (K + 1) → ℝ)
    (hx : ∀ b k, 0 < x b k) (hy : ∀ b k, 0 < y b k) :
    0 < contrastLoss n eps x ∧
      ((∀ b, x b 0 ≤ y b 0) → (∀ b (k : Fin K), y b k.succ ≤ x b k.succ) → contrastLoss n eps y ≤ contrastLoss n eps x) := by
  have hnR : (0 : ℝ) < n := Nat.cast_pos.2 hn
  have hBR : (0 : ℝ) < B := Nat.cast_pos.2 hB
  have hKR : (0 : ℝ) < K := Nat.cast_pos.2 hK
  rw [C64_loss_value hn he x hx, C64_loss_value hn he y hy]
  constructor
  · refine div_pos (Finset.sum_pos (fun b _ => ?_) ⟨⟨0, hB⟩, Finset.mem_univ _⟩) hBR
    refine add_pos_of_pos_of_nonneg (Real.log_pos ?_) (Finset.sum_nonneg fun k _ => Real.log_nonneg ?_)
    · have := hx b 0
      have : 0 < (K / n + eps) / x b 0 := by positivity
      linarith
    · have := hx b k.succ
      have : 0 < (x b k.succ + eps) / (K / n : ℝ) := by positivity
      linarith
  · intro h1 h2
    refine div_le_div_of_nonneg_right (Finset.sum_le_sum fun b _ => add_le_add ?_ (Finset.sum_le_sum fun k _ => ?_)) hBR.le
    · have p := hy b 0
      have q := hx b 0
      have pos : 0 < (K / n + eps) / y b 0 := by positivity
      refine Real.log_le_log (by linarith) ?_
      have := div_le_div_of_nonneg_left (by positivity : 0 ≤ (K / n + eps : ℝ)) q (h1 b)
      linarith
    · have p := hy b k.succ
      have pos : 0 < (y b k.succ + eps) / (K / n : ℝ) := by positivity
      refine Real.log_le_log (by linarith) ?_
      have := div_le_div_of_nonneg_right (by linarith [h2 b k] : y b k.succ + eps ≤ x b k.succ + eps) (by positivity : (0 : ℝ) ≤ K / n)
      linarith

example : (0 : ℕ) < 5 ∧ (0 : ℝ) ≤ 1 / 10 ^ 7 := by constructor <;> norm_num

/-- `CRDLoss` without given negatives compares every sample with its own row first, then with the
drawn ones, and adds the losses of the student and of the teacher. -/
theorem C64_forward {B K n D : ℕ} (c : Cfg) (zs zt : ℝ) (p1 : 0 < zs) (p2 : 0 < zt) (v1 v2 : Fin n → Fin D → ℝ) (fs ft : Fin B → Fin D → ℝ)
    (idx : Fin B → Fin n) (drawn : Fin B → Fin (K + 1) → Fin n) :
    ∃ rows, (∀ b, rows b 0 = idx b) ∧ (∀ b (k : Fin K), rows b k.succ = drawn b k.succ) ∧
      crdForward c ⟨some zs, some zt, fun i => some (v1 i), fun i => some (v2 i)⟩ fs ft idx drawn none =
        .ok ((memoryForward c ⟨some zs, some zt, fun i => some (v1 i), fun i => some (v2 i)⟩ fs ft idx rows).1,
          some (contrastLoss n c.eps (fun b k => scores c.temperature v2 fs rows b k / zs)
          + contrastLoss n c.eps (fun b k => scores c.temperature v1 ft rows b k / zt))) := by
  let rows : Fin B → Fin (K + 1) → Fin n := fun b k => if k = 0 then idx b else drawn b k
  have e1 : complete (fun b k => divide (score c.temperature (some (v2 (rows b k))) (fs b)) (constant n (some zs) fun (b : Fin B) k => score c.temperature (some (v2 (rows b k))) (fs b)))
      = some fun b k => scores c.temperature v2 fs rows b k / zs := complete_some fun b k => by rw [constant_set rfl p1.le]; rfl
  have e2 : complete (fun b k => divide (score c.temperature (some (v1 (rows b k))) (ft b)) (constant n (some zt) fun (b : Fin B) k => score c.temperature (some (v1 (rows b k))) (ft b)))
      = some fun b k => scores c.temperature v1 ft rows b k / zt := complete_some fun b k => by rw [constant_set rfl p2.le]; rfl
  refine ⟨rows, fun b => if_pos rfl, fun b k => if_neg (Fin.succ_ne_zero k), ?_⟩
  unfold crdForward
  have e : pick idx drawn none = .ok rows := rfl
  rw [e]
  dsimp only [memoryForward]
  rw [e1, e2]

/-- Given negatives are used if there are `K + 1` rows for every sample, and refused otherwise. -/
theorem C64_given {B K n D : ℕ} (c : Cfg) (st : Memory n D) (fs ft : Fin B → Fin D → ℝ) (idx : Fin B → Fin n) (drawn : Fin B → Fin (K + 1) → Fin n)
    (l : Fin B → List (Fin n)) :
    ((∃ b, (l b).length ≠ K + 1) → crdForward c st fs ft idx drawn (some l) = .error .runtime) ∧
    ((∀ b, (l b).length = K + 1) → ∃ rows : Fin B → Fin (K + 1) → Fin n, (∀ b, l b = List.ofFn (rows b)) ∧
      ∃ x, crdForward c st fs ft idx drawn (some l) = .ok ((memoryForward c st fs ft idx rows).1, x)) := by
  constructor
  · rintro ⟨b, hb⟩
    have e : pick idx drawn (some l) = .error .runtime := dif_neg fun h => hb (h b)
    unfold crdForward
    rw [e]
  · intro h
    refine ⟨fun b k => (l b).get (k.cast (h b).symm), fun b => ?_, ?_⟩
    · apply List.ext_get
      · simp [h b]
      · intro i h1 h2
        rw [List.get_eq_getElem, List.get_eq_getElem, List.getElem_ofFn]
        rfl
    · have e : pick idx drawn (some l) = .ok fun b k => (l b).get (k.cast (h b).symm) := dif_pos h
      unfold crdForward
      rw [e]
      exact ⟨_, rfl⟩

/-- DISAGREEMENT: the `loss_weight` of `CRDLoss` has no effect. -/
theorem C64_weight_violated {B K n D : ℕ} (c : Cfg) (w : ℝ) (st : Memory n D) (fs ft : Fin B → Fin D → ℝ) (idx : Fin B → Fin n)
    (drawn : Fin B → Fin (K + 1) → Fin n) (given : Option (Fin B → List (Fin n))) :
    crdForward { c with weight := w } st fs ft idx drawn given = crdForward c st fs ft idx drawn given := rfl

end Verif.Contrast
