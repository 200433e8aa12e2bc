import Verif.Lemmas.DmcpChannel

/-! C56: the channel numbers of DMCP. -/

namespace Verif.DmcpChannel
open Verif SeqChannel

/-- C56: with positive rates, the smallest of them above the tolerance of the rounding, every
channel count can be split: the smallest width and the groups add up to all channels, the
smallest width is positive and not below the smallest rate (up to the tolerance). -/
theorem C56_groups (minRate maxRate offset : ℚ) (out : Nat) (hout : 0 < out) (ho : 0 < offset)
    (hmin : offset / 10000 < minRate) (hle : minRate ≤ maxRate) :
    ∃ g k m : Nat, archMessage minRate maxRate offset out = .ok ((g : Int), (k : Int), (m : Int)) ∧
      m + g * k = out ∧ 0 < m ∧ (minRate - offset / 10000) / maxRate * out ≤ m ∧
      (g : Int) = ⌊offset * out / maxRate⌋ ∧ (k : Int) = ⌊(maxRate - minRate) / offset + 1 / 10000⌋ := by
  have hmax : 0 < maxRate := lt_of_lt_of_le (lt_trans (by positivity) hmin) hle
  have hq : (0 : ℚ) < out := by exact_mod_cast hout
  have p1 : 0 ≤ offset * out / maxRate := by positivity
  have p2 : 0 ≤ (maxRate - minRate) / offset + 1 / 10000 := by
    have : 0 ≤ maxRate - minRate := by linarith
    positivity
  obtain ⟨g, hg⟩ := Int.eq_ofNat_of_zero_le (Int.floor_nonneg.2 p1)
  obtain ⟨k, hk⟩ := Int.eq_ofNat_of_zero_le (Int.floor_nonneg.2 p2)
  have g1 : (g : ℚ) ≤ offset * out / maxRate := by
    have := Int.floor_le (offset * out / maxRate); rw [hg] at this; exact_mod_cast this
  have k1 : (k : ℚ) ≤ (maxRate - minRate) / offset + 1 / 10000 := by
    have := Int.floor_le ((maxRate - minRate) / offset + 1 / 10000); rw [hk] at this; exact_mod_cast this
  have hprod : (g : ℚ) * k ≤ out - (minRate - offset / 10000) / maxRate * out := by
    calc (g : ℚ) * k ≤ (offset * out / maxRate) * ((maxRate - minRate) / offset + 1 / 10000) :=
          mul_le_mul g1 k1 (by positivity) p1
      _ = out - (minRate - offset / 10000) / maxRate * out := by field_simp; ring
  have hpos : 0 < (minRate - offset / 10000) / maxRate * out :=
    mul_pos (div_pos (by linarith) hmax) hq
  have hlt : g * k < out := by
    have : ((g * k : Nat) : ℚ) < out := by push_cast; linarith
    exact_mod_cast this
  refine ⟨g, k, out - g * k, ?_, by omega, by omega, ?_, hg.symm, hk.symm⟩
  · unfold archMessage
    rw [if_neg (by push Not; exact ⟨hmax.ne', ho.ne'⟩)]
    dsimp only
    rw [pyInt_pos p1, pyInt_pos p2, hg, hk]
    have hm : (out : Int) - (g : Int) * (k : Int) = ((out - g * k : Nat) : Int) := by
      rw [Nat.cast_sub hlt.le]; push_cast; rfl
    rw [hm, if_neg (by push Not; exact_mod_cast (by omega : 0 < out - g * k)), if_neg (by simp)]
  · rw [Nat.cast_sub hlt.le]; push_cast; linarith

example : archMessage (1 / 10) 1 (1 / 20) 64 = .ok (3, 18, 10) := by decide +kernel

/-- Layers whose channels are fewer than a group cannot be pruned at all; with the default
rates these are all layers with less than 20 channels. -/
theorem C56_small_violated (minRate maxRate offset : ℚ) (out : Nat) (hout : 0 < out) (ho : 0 < offset)
    (hmin : offset / 10000 < minRate) (hle : minRate ≤ maxRate) (hs : offset * out < maxRate) :
    ∃ k : Nat, archMessage minRate maxRate offset out = .ok (0, (k : Int), (out : Int)) := by
  obtain ⟨g, k, m, h1, h2, h3, h4, h5, h6⟩ := C56_groups minRate maxRate offset out hout ho hmin hle
  have hmax : 0 < maxRate := lt_of_lt_of_le (lt_trans (by positivity) hmin) hle
  have : ⌊offset * out / maxRate⌋ = 0 := by
    rw [Int.floor_eq_zero_iff]
    exact ⟨by positivity, (div_lt_one hmax).2 hs⟩
  rw [this] at h5
  have hg : g = 0 := by omega
  subst hg
  refine ⟨k, ?_⟩
  rw [h1]
  congr 3
  omega

/-- The size of a group is rounded down, so the smallest width can be much larger than the
smallest rate: 21 of 39 channels for a rate of 1/10. -/
theorem C56_smallest_violated : archMessage (1 / 10) 1 (1 / 20) 39 = .ok (1, 18, 21) := by decide +kernel

/-- C56: `max` takes all channels, `min` the smallest width, `random` the smallest width and the
drawn number of groups; `direct` adds one group after the other as long as the draw does not
exceed the probability given by the group's parameter. The mask then has exactly these
channels, and never less than the smallest width. Another mode is an error if there are groups. -/
theorem C56_sampled (A : Attr) (arch : List ℝ) (n : Nat) (h : Fits A arch n) (r : Nat)
    (us : List ℝ) (hu : us.length = A.groups) :
    prune A arch .max r us = .ok (.num n) ∧ prune A arch .min r us = .ok (.num A.minCh) ∧
    prune A arch .random r us = .ok (.num (A.minCh + A.g * r)) ∧
    (∃ k ≤ A.groups, prune A arch .direct r us = .ok (.num (A.minCh + A.g * k)) ∧
      (∀ i < k, us.getD i 0 ≤ Real.exp (-(max (arch.getD i 0) 0))) ∧
      (k < A.groups → Real.exp (-(max (arch.getD k 0) 0)) < us.getD k 0)) ∧
    (∀ k ≤ A.groups, setChoice n (.num (A.minCh + A.g * k)) =
      .ok (List.replicate (A.minCh + A.g * k) true ++ List.replicate (n - (A.minCh + A.g * k)) false)) ∧
    (0 < A.groups → prune A arch .other r us = .error .notImplemented) := by
  have hgd : ∀ i < arch.length, (arch.map condProb).getD i 0 = Real.exp (-(max (arch.getD i 0) 0)) := by
    intro i hi
    simp [List.getD_eq_getElem?_getD, hi, condProb]
  refine ⟨by simp only [prune, h.sum], rfl, rfl, ?_, ?_, fun h0 => by simp [prune, h0.ne']⟩
  · obtain ⟨k, h1, h2, h3, h4⟩ := direct_spec A.g (arch.map condProb) us (by rw [hu, List.length_map, h.len]) A.minCh
    rw [List.length_map, h.len] at h1 h4
    refine ⟨k, h1, ?_, ?_, ?_⟩
    · unfold prune
      by_cases h0 : A.groups = 0
      · have : k = 0 := by omega
        simp [h0, this]
      · simp [h0, h2]
    · intro i hi
      have := h3 i hi
      rwa [hgd i (by rw [h.len]; omega)] at this
    · intro hk
      have := h4 hk
      rwa [hgd k (by rw [h.len]; omega)] at this
  · intro k hk
    have := Nat.mul_le_mul_left A.g hk
    exact set_num n _ (by have := h.pos; omega) (by have := h.sum; omega)

/-- C56: the number of channels of the mode `expected` is the mean of the numbers sampled in
the mode `direct`. -/
theorem C56_expected (A : Attr) (arch : List ℝ) (n : Nat) (h : Fits A arch n) :
    chosen A arch .expected [] = mean A.groups (chosen A arch .direct) := by
  have e : chosen A arch .direct = fun us => (direct A.g A.minCh (arch.map condProb) us : ℝ) := by
    funext us; exact chosen_direct A arch us n h
  rw [chosen_expected A arch [] n h, e, ← direct_mean A.g _ (probs arch), List.length_map, h.len]

/-- C56: with the architecture parameters switched on, a normalisation layer multiplies every
channel with the probability that sampling in the mode `direct` keeps it, for every width that
can be sampled. -/
theorem C56_forward (A : Attr) (arch : List ℝ) (n : Nat) (h : Fits A arch n) (k len : Nat) (hk : k ≤ A.groups) (hlen : 0 < len)
    (x : Nat → Nat → ℝ) :
    ∃ y, forward A arch (A.minCh + A.g * k) len x = .ok y ∧
      ∀ c < A.minCh + A.g * k, ∀ j < len,
        y c j = x c j * mean A.groups fun us => if (c : ℝ) < chosen A arch .direct us then 1 else 0 := by
  have low : ∀ c < A.minCh, (mean A.groups fun us => if (c : ℝ) < chosen A arch .direct us then 1 else 0) = 1 := by
    intro c hc
    have e : ∀ us, (if (c : ℝ) < chosen A arch .direct us then (1 : ℝ) else 0) = 1 := by
      intro us
      rw [chosen_direct A arch us n h]
      exact if_pos (by exact_mod_cast lt_of_lt_of_le hc (direct_ge _ _ _ _))
    simp only [e, mean_const]
  by_cases h0 : A.groups = 0 ∨ A.minCh + A.g * k = A.minCh
  · refine ⟨x, by unfold forward; rw [if_pos h0], ?_⟩
    intro c hc j _
    have hc' : c < A.minCh := by
      rcases h0 with h0 | h0
      · have : k = 0 := by omega
        subst this; simpa using hc
      · omega
    rw [low c hc', mul_one]
  · have hgk : A.g * k ≠ 0 := by intro he; exact h0 (Or.inr (by omega))
    have hg : 0 < A.g := Nat.pos_of_ne_zero (by intro he; simp [he] at hgk)
    have hk0 : 0 < k := Nat.pos_of_ne_zero (by intro he; simp [he] at hgk)
    have hdiv : (A.minCh + A.g * k - A.minCh) / A.g = k := by
      rw [Nat.add_sub_cancel_left, Nat.mul_div_cancel_left _ hg]
    have htot : (A.minCh + A.g * k - A.minCh) * len = k * (A.g * len) := by
      rw [Nat.add_sub_cancel_left]; ring
    refine ⟨fun c j => if c < A.minCh then x c j else x c j * (cumprod 1 (arch.map condProb)).getD
        (if A.groups = 1 then 0 else ((c - A.minCh) * len + j) / (A.g * len)) 0, ?_, ?_⟩
    · unfold forward
      rw [if_neg h0, if_neg hg.ne']
      dsimp only
      rw [hdiv, htot, Nat.mul_mod_right, Nat.mul_div_cancel_left _ hk0, if_neg (by simp [hk0.ne']), if_neg (by omega)]
    · intro c hc j hj
      dsimp only
      by_cases hcm : c < A.minCh
      · rw [if_pos hcm, low c hcm, mul_one]
      · rw [if_neg hcm]
        have hrow : (if A.groups = 1 then 0 else ((c - A.minCh) * len + j) / (A.g * len)) = (c - A.minCh) / A.g := by
          by_cases h1 : A.groups = 1
          · have : k = 1 := by omega
            subst this
            rw [if_pos h1, Nat.div_eq_of_lt (by omega)]
          · rw [if_neg h1, Nat.mul_comm A.g len, ← Nat.div_div_eq_div_mul, Nat.mul_comm (c - A.minCh), Nat.mul_add_div hlen,
              Nat.div_eq_of_lt hj, Nat.add_zero]
        rw [hrow, ← direct_keeps A.g hg _ (probs arch) A.minCh c (by omega), List.length_map, h.len]
        congr 2
        funext us
        rw [chosen_direct A arch us n h]
        simp only [Nat.cast_lt]

/-- The expected number of channels is at least the smallest width and at most all channels;
it is below that as soon as the first parameter is positive. -/
theorem C56_expected_range (A : Attr) (arch : List ℝ) (n : Nat) (h : Fits A arch n) :
    (A.minCh : ℝ) ≤ chosen A arch .expected [] ∧ chosen A arch .expected [] ≤ n ∧
    (0 < A.g → 0 < arch.getD 0 0 → chosen A arch .expected [] < n) := by
  rw [chosen_expected A arch [] n h]
  obtain ⟨h1, h2⟩ := cumprod_bound _ (probs arch)
  rw [List.length_map, h.len] at h2
  have hn : (n : ℝ) = A.minCh + A.g * A.groups := by rw [← h.sum]; push_cast; rfl
  have hg : (0 : ℝ) ≤ A.g := by positivity
  refine ⟨by nlinarith, by rw [hn]; nlinarith, ?_⟩
  intro hg0 ha
  have hg1 : (0 : ℝ) < A.g := by exact_mod_cast hg0
  cases arch with
  | nil => simp at ha
  | cons a as =>
    have hp : condProb a < 1 := by
      unfold condProb
      rw [← Real.exp_zero]
      apply Real.exp_lt_exp.2
      simp only [List.getD_cons_zero] at ha
      simp [ha]
    have hlen := h.len
    rw [List.length_cons] at hlen
    obtain ⟨h3, h4⟩ := cumprod_bound _ (probs as)
    rw [List.length_map] at h4
    rw [List.map_cons, cumprod_sum, hn, ← hlen]
    have hpos := condProb_pos a
    have : condProb a * (1 + (cumprod 1 (as.map condProb)).sum) < 1 + as.length := by nlinarith
    push_cast
    nlinarith

/-- In the mode `expected` the mask is that of the whole network, whatever the parameters are:
the expected number is taken for a ratio. The subnet exported as the expected one at the end of
the training is therefore not pruned. -/
theorem C56_expected_mask_violated (A : Attr) (arch : List ℝ) (n : Nat) (h : Fits A arch n) :
    ∃ c, prune A arch .expected 0 [] = .ok c ∧ setChoice n c = .ok (List.replicate n true) := by
  have hn := h.pos
  have hs := h.sum
  by_cases h0 : A.groups = 0
  · refine ⟨.num A.minCh, by simp [prune, h0], full_mask n _ ?_ ?_⟩
    · rw [h0] at hs; simp only [toNum]; omega
    · simp only [toNum]; omega
  · refine ⟨_, by simp only [prune, h0, if_false]; rfl, full_mask n _ ?_ (le_max_left _ _)⟩
    have he := (C56_expected_range A arch n h).1
    rw [chosen_expected A arch [] n h] at he
    have h1 : (1 : ℝ) ≤ A.minCh := by exact_mod_cast hn
    simp only [toNum]
    have hx : (n : ℝ) ≤ n * ((cumprod 1 (arch.map condProb)).sum * A.g + A.minCh) := by
      have : (0 : ℝ) ≤ n := by positivity
      nlinarith
    rw [if_pos (le_trans (by positivity) hx)]
    refine le_trans ?_ (le_max_right _ _)
    rw [Int.le_floor]
    exact_mod_cast hx

/-- The FLOPs computed in the mode `expected` are not the mean of the FLOPs of the sampled
subnets: the input channels of each convolution are counted in full, so the result is too large
as soon as the first parameter of the unit before the convolution is positive. -/
theorem C56_expected_flops_violated (A B : Attr) (a b : List ℝ) (n m : Nat) (hA : Fits A a n) (hB : Fits B b m) (k : ℝ)
    (hk : 0 < k) (hg : 0 < A.g) (ha : 0 < a.getD 0 0) :
    flops A a n B b k .expected [] [] = k * n * chosen B b .expected [] ∧
    (mean A.groups fun us => mean B.groups fun vs => flops A a n B b k .direct us vs) =
      k * chosen A a .expected [] * chosen B b .expected [] ∧
    (mean A.groups fun us => mean B.groups fun vs => flops A a n B b k .direct us vs) <
      flops A a n B b k .expected [] [] := by
  have e1 : flops A a n B b k .expected [] [] = k * n * chosen B b .expected [] := by
    obtain ⟨ca, h1, h2⟩ := C56_expected_mask_violated A a n hA
    obtain ⟨cb, h3, _⟩ := C56_expected_mask_violated B b m hB
    unfold flops chosen
    simp only [h1, h2, h3, convFlops]
    simp [popcount, List.countP_replicate]
  have e2 : (mean A.groups fun us => mean B.groups fun vs => flops A a n B b k .direct us vs) =
      k * chosen A a .expected [] * chosen B b .expected [] := by
    rw [mean_congr A.groups _ fun us => k * chosen B b .expected [] * chosen A a .direct us, mean_mul, ← C56_expected A a n hA]
    · ring
    · intro us hu
      have : (fun vs => flops A a n B b k .direct us vs) = fun vs => k * chosen A a .direct us * chosen B b .direct vs := by
        funext vs
        obtain ⟨_, _, _, ⟨j, hj, hp, _⟩, hm, _⟩ := C56_sampled A a n hA 0 us hu
        exact flops_direct A B a b n k us vs _ hp (hm j hj)
      rw [this, mean_mul, ← C56_expected B b m hB]
      ring
  refine ⟨e1, e2, ?_⟩
  rw [e1, e2]
  have h1 := (C56_expected_range A a n hA).2.2 hg ha
  have h2 := (C56_expected_range B b m hB).1
  have h3 : (0 : ℝ) < B.minCh := by exact_mod_cast hB.pos
  have h4 : 0 < chosen B b .expected [] := lt_of_lt_of_le h3 h2
  exact mul_lt_mul_of_pos_right (mul_lt_mul_of_pos_left h1 hk) h4

example : Fits ⟨3, 2, 4⟩ [1, 0] 10 ∧ 0 < ([1, 0] : List ℝ).getD 0 0 := ⟨⟨by decide, by decide, rfl⟩, by simp⟩

/-- DISAGREEMENT: with a single group of channels the probability of that group is spread over all channels after the first, however
many there are; with more groups an input with more channels than there are groups for is refused. -/
theorem C56_too_wide_violated (A : Attr) (arch : List ℝ) (hg : 0 < A.g) (h0 : A.groups ≠ 0) (k len : Nat) (hk : A.groups < k)
    (x : Nat → Nat → ℝ) :
    (A.groups ≠ 1 → forward A arch (A.minCh + A.g * k) len x = .error .runtime) ∧
    (A.groups = 1 → ∃ y, forward A arch (A.minCh + A.g * k) len x = .ok y ∧ ∀ c, A.minCh ≤ c → ∀ j,
      y c j = x c j * (cumprod 1 (arch.map condProb)).getD 0 0) := by
  have hgk : A.g * k ≠ 0 := Nat.mul_ne_zero hg.ne' (by omega)
  have hdiv : (A.minCh + A.g * k - A.minCh) / A.g = k := by
    rw [Nat.add_sub_cancel_left, Nat.mul_div_cancel_left _ hg]
  have htot : (A.minCh + A.g * k - A.minCh) * len = k * (A.g * len) := by
    rw [Nat.add_sub_cancel_left]; ring
  unfold forward
  rw [if_neg (by omega), if_neg hg.ne']
  dsimp only
  rw [hdiv, htot, Nat.mul_mod_right, if_neg (show ¬(k = 0 ∨ 0 ≠ 0) by omega)]
  refine ⟨fun h1 => by rw [if_pos ⟨hk, h1⟩], fun h1 => ?_⟩
  rw [if_neg (by simp [h1])]
  refine ⟨_, rfl, ?_⟩
  intro c hc j
  beta_reduce
  rw [if_neg (by omega), if_pos h1]

/-- Which unit is refused, and with which error: rates or an offset of 0 (ZeroDivisionError), no channels left below the
groups (AssertionError), and a largest rate below the smallest one by at least the offset (RuntimeError). -/
theorem C56_refused (minRate maxRate offset : ℚ) (out : Nat) (e : Err) :
    archMessage minRate maxRate offset out = .error e ↔
      ((maxRate = 0 ∨ offset = 0) ∧ e = .zeroDivision) ∨
      (maxRate ≠ 0 ∧ offset ≠ 0 ∧
        ((out ≤ pyInt (offset * out / maxRate) * pyInt ((maxRate - minRate) / offset + 1 / 10000) ∧ e = .assertion) ∨
          (pyInt (offset * out / maxRate) * pyInt ((maxRate - minRate) / offset + 1 / 10000) < out ∧
            pyInt ((maxRate - minRate) / offset + 1 / 10000) < 0 ∧ e = .runtime))) := by
  unfold archMessage
  by_cases h : maxRate = 0 ∨ offset = 0
  · rw [if_pos h]
    constructor
    · intro h'
      cases h'
      exact Or.inl ⟨h, rfl⟩
    · rintro (⟨-, rfl⟩ | ⟨h1, h2, -⟩)
      · rfl
      · rcases h with h | h
        · exact absurd h h1
        · exact absurd h h2
  · rw [if_neg h]
    have h1 : maxRate ≠ 0 := fun h' => h (Or.inl h')
    have h2 : offset ≠ 0 := fun h' => h (Or.inr h')
    dsimp only
    generalize pyInt ((maxRate - minRate) / offset + 1 / 10000) = k
    generalize pyInt (offset * out / maxRate) = g
    generalize g * k = p
    by_cases hm : ¬ 0 < (out : Int) - p
    · rw [if_pos hm]
      constructor
      · intro h'
        cases h'
        exact Or.inr ⟨h1, h2, Or.inl ⟨by omega, rfl⟩⟩
      · rintro (⟨h', -⟩ | ⟨-, -, ⟨-, rfl⟩ | ⟨h', -⟩⟩)
        · exact absurd h' h
        · rfl
        · omega
    · rw [if_neg hm]
      by_cases hk : k < 0
      · rw [if_pos hk]
        constructor
        · intro h'
          cases h'
          exact Or.inr ⟨h1, h2, Or.inr ⟨by omega, hk, rfl⟩⟩
        · rintro (⟨h', -⟩ | ⟨-, -, ⟨h', -⟩ | ⟨-, -, rfl⟩⟩)
          · exact absurd h' h
          · omega
          · rfl
      · rw [if_neg hk]
        constructor
        · intro h'
          cases h'
        · rintro (⟨h', -⟩ | ⟨-, -, ⟨h', -⟩ | ⟨-, h', -⟩⟩)
          · exact absurd h' h
          · omega
          · omega

example : archMessage (1 / 10) 1 (1 / 20) 0 = .error .assertion ∧ archMessage 2 1 (1 / 20) 40 = .error .runtime := by
  decide +kernel

end Verif.DmcpChannel
