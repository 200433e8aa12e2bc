import Verif.Lemmas.SparseGpt
import Verif.Lemmas.Compensate

namespace Verif.SparseGpt
open Verif

/-! The choice of the smallest entries -/

/-! One block -/

/-! All blocks -/

/-- Every selected weight is zero in the end, for both patterns: later columns and blocks do
not overwrite it. -/
theorem C42_zeros (c : Cfg) (w : Mat) (h : (prune c w).err = none) (r j : Nat) (hj : j < c.cols)
    (hm : (prune c w).mask r j = true) : (prune c w).w r j = 0 := by
  obtain ⟨hb, e⟩ := prune_ok h
  rw [e] at h hm ⊢
  obtain ⟨b1, b2, b3⟩ := block_of_col c hb j hj
  obtain ⟨w0, blk, hc, hq⟩ := blocks_spec c w _ h _ b1
  rw [(hq r j b2 b3).2] at hm
  rw [(hq r j b2 b3).1]
  exact cols_zero c _ _ w0 _ blk hc r _ (by omega) hm

/-! Pattern n:m -/

/-- Pattern n:m on a layer whose number of columns, and a block size which, are multiples of
`m`: pruning succeeds, and in each row each group of `m` consecutive columns has exactly `n`
selected entries, all zero. Missing: other numbers of columns and block sizes, see `C42_pattern_violated` and
`C42_remainder_violated`. -/
theorem C42_pattern_partial (c : Cfg) (w : Mat) (hn : 0 < c.n) (hnm : c.n ≤ c.m) (hd : c.m ∣ c.cols) (hb : c.m ∣ c.blocksize)
    (hb0 : 0 < c.blocksize) :
    (prune c w).err = none ∧ ∀ r g, g * c.m + c.m ≤ c.cols →
      selected (prune c w).mask r (g * c.m) c.m = c.n ∧
      ∀ t < c.m, (prune c w).mask r (g * c.m + t) = true → (prune c w).w r (g * c.m + t) = 0 := by
  have hm : c.m ≠ 0 := by omega
  have hsel := blocks_selected c w hn.ne' hm hnm hd hb hb0.ne'
  have hprune : prune c w = blocks c w ((c.cols + c.blocksize - 1) / c.blocksize) := by
    unfold prune
    rw [if_neg hb0.ne']
    simp only [blocks_ok c w hn.ne' hm hnm hd hb _ (le_refl _)]
    split_ifs with h24
    · have : sparse24 c (blocks c w ((c.cols + c.blocksize - 1) / c.blocksize)).w = .ok true := by
        apply sparse24_true c _ (by rw [← h24.2]; exact hd)
        intro r g hg
        obtain ⟨h1, h2⟩ := hsel r g (by rw [h24.2]; exact hg)
        rw [h24.1, h24.2] at h1
        rw [h24.2] at h2
        rw [← h1]
        unfold selected
        apply List.countP_mono_left
        intro t ht hmt
        rw [List.mem_range] at ht
        simpa using h2 t ht hmt
      rw [this]
    · rfl
  rw [hprune]
  exact ⟨blocks_ok c w hn.ne' hm hnm hd hb _ (le_refl _), hsel⟩

/-- The entries selected in a group are the ones with the smallest scores. -/
theorem C42_choice (n : Nat) (l : List ℚ) (hn : n ≤ l.length) :
    (smallest n l).Nodup ∧ (smallest n l).length = n ∧ (∀ j ∈ smallest n l, j < l.length) ∧
    ∀ (i j : Nat) (x y : ℚ), i ∈ smallest n l → j ∉ smallest n l → l[i]? = some x → l[j]? = some y → x ≤ y :=
  ⟨smallest_nodup n l, smallest_length n l hn, smallest_lt n l, smallest_le n l⟩

/-- A block size that is no multiple of `m`: the groups start anew in each block, and both
columns of a pair are zeroed by the pattern 1:2. -/
theorem C42_pattern_violated :
    (prune (simple 6 1 2 3 0) ramp).err = none ∧
      ((List.range 6).map fun j => (prune (simple 6 1 2 3 0) ramp).w 0 j) = [0, 2, 0, 0, 5, 0] ∧
      selected (prune (simple 6 1 2 3 0) ramp).mask 0 2 2 = 2 := by
  refine ⟨by decide +kernel, by decide +kernel, by decide +kernel⟩

/-- A number of columns that is no multiple of `m`: the pattern fails, and the weights of the
groups before stay pruned. -/
theorem C42_remainder_violated :
    (prune (simple 5 2 4 4 0) ramp).err = some .runtime ∧ (prune (simple 5 2 4 4 0) ramp).w 0 0 = 0 ∧ ramp 0 0 = 1 := by
  refine ⟨by decide +kernel, by decide +kernel, by decide +kernel⟩

/-! Sparsity ratio -/

/-- A sparsity ratio from 0 to below 1: the selection of a block succeeds; at least
`int(size * sparsity) + 1` entries are selected, exactly so many when no two scores are equal. Missing: negative ratios and the
ratio 1, see `C42_negative_violated` and `C42_full_violated`; one entry more than asked for goes, see `C42_ratio_violated`. -/
theorem C42_ratio_partial (c : Cfg) (i1 count : Nat) (w1 : Mat) (hn : c.n = 0) (hs : 0 ≤ c.sparsity) (hs1 : c.sparsity < 1)
    (hne : 0 < c.rows * count) :
    ∃ mask, startMask c i1 count w1 = .ok mask ∧
      pyInt ((c.rows * count : Nat) * c.sparsity) + 1 ≤ blockSelected c mask count ∧
      ((scores c i1 count w1).Nodup → (blockSelected c mask count : Int) = pyInt ((c.rows * count : Nat) * c.sparsity) + 1) :=
  ratio_mask c i1 count w1 hn hs hs1 hne

/-- Over the whole layer: pruning with a ratio from 0 to below 1 succeeds, and in every block of
columns at least `int(size * sparsity) + 1` entries are zero in the end. Missing: negative ratios and the ratio 1, see
`C42_negative_violated` and `C42_full_violated`. -/
theorem C42_ratio_layer_partial (c : Cfg) (w : Mat) (hn : c.n = 0) (hs : 0 ≤ c.sparsity) (hs1 : c.sparsity < 1) (hr : 0 < c.rows)
    (hb0 : 0 < c.blocksize) :
    (prune c w).err = none ∧ ∀ b, b * c.blocksize < c.cols →
      let count := min (b * c.blocksize + c.blocksize) c.cols - b * c.blocksize
      pyInt ((c.rows * count : Nat) * c.sparsity) + 1 ≤
        ((List.range c.rows).map fun r => (List.range count).countP fun j => decide ((prune c w).w r (b * c.blocksize + j) = 0)).sum := by
  have herr := blocks_ratio_ok c w hn hs hs1 hr hb0 _ (le_refl _)
  have hprune : prune c w = blocks c w ((c.cols + c.blocksize - 1) / c.blocksize) := by
    unfold prune
    rw [if_neg hb0.ne']
    simp only [herr]
    rw [if_neg (by omega)]
  rw [hprune]
  refine ⟨herr, ?_⟩
  intro b hb count
  have hbk : b < (c.cols + c.blocksize - 1) / c.blocksize := by
    rw [Nat.lt_iff_add_one_le, Nat.le_div_iff_mul_le hb0, Nat.succ_mul]
    omega
  obtain ⟨w0, blk, hc, hin⟩ := blocks_spec c w _ herr b hbk
  obtain ⟨mask, hm, hcnt, _⟩ := ratio_mask c (b * c.blocksize) count (fun r j => w0 r (b * c.blocksize + j)) hn hs hs1
    (Nat.mul_pos hr (by omega))
  obtain ⟨blk', hc', hmask⟩ := cols_mask c (b * c.blocksize) count w0 hn mask hm count
  rw [hc'] at hc
  obtain rfl := Except.ok.inj hc
  refine le_trans hcnt ?_
  have : blockSelected c mask count ≤
      ((List.range c.rows).map fun r => (List.range count).countP fun j =>
        decide ((blocks c w ((c.cols + c.blocksize - 1) / c.blocksize)).w r (b * c.blocksize + j) = 0)).sum := by
    unfold blockSelected
    apply List.sum_le_sum
    intro r _
    apply List.countP_mono_left
    intro j hj hmj
    rw [List.mem_range] at hj
    rw [(hin r (b * c.blocksize + j) (by omega) (by omega)).1]
    have e : b * c.blocksize + j - b * c.blocksize = j := by omega
    rw [e, decide_eq_true_iff]
    exact cols_zero c _ _ w0 _ blk' hc' r j hj (by rw [hmask]; exact hmj)
  exact_mod_cast this

/-- It is not the fraction: half of two weights is both, and sparsity 0 still prunes. -/
theorem C42_ratio_violated :
    ((List.range 2).map fun j => (prune (simple 2 0 0 128 (1 / 2)) ramp).w 0 j) = [0, 0] ∧
    ((List.range 2).map fun j => (prune (simple 2 0 0 128 0) ramp).w 0 j) = [0, 2] := by
  constructor <;> decide +kernel

/-- A negative sparsity is not rejected but counts from the largest score: −1/2 of four weights
prunes three of them, −1 the smallest; −2 fails. -/
theorem C42_negative_violated :
    ((List.range 4).map fun j => (prune (simple 4 0 0 128 (-1 / 2)) ramp).w 0 j) = [0, 0, 0, 4] ∧
    ((List.range 4).map fun j => (prune (simple 4 0 0 128 (-1)) ramp).w 0 j) = [0, 2, 3, 4] ∧
    (prune (simple 4 0 0 128 (-2)) ramp).err = some .index := by
  refine ⟨?_, ?_, ?_⟩ <;> decide +kernel

/-- A block size of zero is rejected; only the weights of dead inputs have been set to zero by
then. -/
theorem C42_blocksize_zero (c : Cfg) (w : Mat) (h : c.blocksize = 0) :
    (prune c w).err = some .value ∧
    ∀ r j, (c.dead j = false → (prune c w).w r j = w r j) ∧ (c.dead j = true → (prune c w).w r j = 0) := by
  unfold prune
  rw [if_pos h]
  refine ⟨rfl, fun r j => ⟨fun hd => ?_, fun hd => ?_⟩⟩ <;> simp [blocks, hd]

example : (simple 4 0 0 0 0).blocksize = 0 := rfl

/-- Sparsity 1 fails. -/
theorem C42_full_violated : (prune (simple 2 0 0 128 1) ramp).err = some .index := by decide +kernel

example : (prune (simple 4 2 4 4 0) ramp).err = none ∧
    ((List.range 4).map fun j => (prune (simple 4 2 4 4 0) ramp).w 0 j) = [0, 0, 3, 4] := by
  constructor <;> decide +kernel

/-! Compensation of the later columns -/

/-- Whatever the block size: the weights left by a pruning that succeeds are those of removing the
selected weights column by column, each removal corrected in all later columns, starting from the
weights with the dead columns at zero. -/
theorem C42_compensation (c : Cfg) (w : Mat) (h : (prune c w).err = none) (r j : Nat) (hj : j < c.cols) :
    (prune c w).w r j = if (prune c w).mask r j then 0 else obs c.hinv (alive c w) (prune c w).mask j r j := by
  obtain ⟨hb, e⟩ := prune_ok h
  rw [e] at h ⊢
  obtain ⟨b1, b2, b3⟩ := block_of_col c hb j hj
  obtain ⟨w0, blk, hc, hw0, hq⟩ := blocks_start c w _ h _ b1 (by omega)
  have hco := cols_obs c _ _ w0 (alive c w) _ hw0 _ blk hc (by
    intro r t ht
    have h2 := (hq r (j / c.blocksize * c.blocksize + t) (by omega) (by omega)).2
    rw [Nat.add_sub_cancel_left] at h2
    exact h2.symm)
  rw [(hq r j b2 b3).1, hco.2.1 r _ (by omega)]
  have : j / c.blocksize * c.blocksize + (j - j / c.blocksize * c.blocksize) = j := by omega
  rw [this]

/-- The compensation is the best there is: when a column is treated, its weights that are kept are
those of a row `x` that has the new weights in the columns before and, among all such rows, the least
squared change of the outputs (for the damped matrix `hm` of the inputs). -/
theorem C42_optimal (c : Cfg) (w : Mat) (hm : Mat) (h : (prune c w).err = none) (hf : Compensate.IsFactor c.cols hm c.hinv)
    (r t : Nat) (ht : t < c.cols) :
    ∃ x : Nat → ℚ, (∀ j < t, x j = (prune c w).w r j) ∧
      (∀ v : Nat → ℚ, (∀ j < t, v j = (prune c w).w r j) →
        Compensate.quadErr c.cols hm (fun j => alive c w r j - x j) ≤ Compensate.quadErr c.cols hm (fun j => alive c w r j - v j)) ∧
      (prune c w).w r t = if (prune c w).mask r t then 0 else x t := by
  have hc := C42_compensation c w h r
  obtain ⟨h1, h2⟩ := Compensate.compensate hf (alive c w r) ((prune c w).w r) (fun k j => obs c.hinv (alive c w) (prune c w).mask k r j)
      (fun k => if (prune c w).mask r k then obs c.hinv (alive c w) (prune c w).mask k r k / c.hinv k k else 0) (fun j => rfl)
      (fun k j => rfl) (fun k hk => by
        rw [hc k hk]
        by_cases hmk : (prune c w).mask r k = true
        · rw [if_pos hmk, if_pos hmk, div_mul_cancel₀ _ (hf.2.1 k hk), sub_zero]
        · rw [if_neg hmk, if_neg hmk, zero_mul, sub_self]) t (by omega)
  refine ⟨fun j => if j < t then (prune c w).w r j else obs c.hinv (alive c w) (prune c w).mask t r j, ?_, ?_, ?_⟩
  · intro j hj
    dsimp only
    rw [if_pos hj]
  · intro v hv
    rw [h1]
    exact h2 v hv
  · dsimp only
    rw [if_neg (lt_irrefl t)]
    exact hc t ht

/-- The squared change of a row's outputs is the sum of the saliencies that the removed weights have
when they are removed. -/
theorem C42_row_error (c : Cfg) (w : Mat) (hm : Mat) (h : (prune c w).err = none) (hf : Compensate.IsFactor c.cols hm c.hinv) (r : Nat) :
    Compensate.quadErr c.cols hm (fun j => alive c w r j - (prune c w).w r j) =
      ∑ t ∈ Finset.range c.cols, if (prune c w).mask r t then saliency c.hinv (obs c.hinv (alive c w) (prune c w).mask t) r t else 0 := by
  have hc := C42_compensation c w h r
  obtain ⟨h1, _⟩ := Compensate.compensate hf (alive c w r) ((prune c w).w r) (fun k j => obs c.hinv (alive c w) (prune c w).mask k r j)
      (fun k => if (prune c w).mask r k then obs c.hinv (alive c w) (prune c w).mask k r k / c.hinv k k else 0) (fun j => rfl)
      (fun k j => rfl) (fun k hk => by
        rw [hc k hk]
        by_cases hmk : (prune c w).mask r k = true
        · rw [if_pos hmk, if_pos hmk, div_mul_cancel₀ _ (hf.2.1 k hk), sub_zero]
        · rw [if_neg hmk, if_neg hmk, zero_mul, sub_self]) c.cols (le_refl _)
  have e : Compensate.quadErr c.cols hm (fun j => alive c w r j - (prune c w).w r j) =
      ∑ t ∈ Finset.range c.cols, (if (prune c w).mask r t then obs c.hinv (alive c w) (prune c w).mask t r t / c.hinv t t else 0) ^ 2 := by
    rw [← h1]
    unfold Compensate.quadErr
    apply Finset.sum_congr rfl
    intro a ha
    apply Finset.sum_congr rfl
    intro b hb
    rw [Finset.mem_range] at ha hb
    dsimp only
    rw [if_pos ha, if_pos hb]
  rw [e]
  apply Finset.sum_congr rfl
  intro t _
  unfold saliency
  by_cases hmk : (prune c w).mask r t = true
  · rw [if_pos hmk, if_pos hmk, div_pow]
  · rw [if_neg hmk, if_neg hmk]
    norm_num

example : ∃ hm, Compensate.IsFactor 4 hm (coupled 2).hinv ∧ (prune (coupled 2) ramp).err = none := by
  refine ⟨fun i j => ([[85 / 256, -11 / 128, -3 / 64, -1 / 32], [-11 / 128, 21 / 64, -3 / 32, -1 / 16], [-3 / 64, -3 / 32, 5 / 16, -1 / 8], [-1 / 32, -1 / 16, -1 / 8, 1 / 4]].getD i []).getD j 0, ?_, by decide +kernel⟩
  unfold Compensate.IsFactor
  decide +kernel

/-- In each group of `m` columns the selected weights are those with the smallest saliency, taken
of the weights as the removals in the columns before the group have left them. Missing: other numbers of columns and block
sizes, see `C42_pattern_violated`. -/
theorem C42_group_choice_partial (c : Cfg) (w : Mat) (hn : 0 < c.n) (hnm : c.n ≤ c.m) (hd : c.m ∣ c.cols) (hb : c.m ∣ c.blocksize)
    (hb0 : 0 < c.blocksize) (r g : Nat) (hg : g * c.m + c.m ≤ c.cols) (t t' : Nat) (ht : t < c.m) (ht' : t' < c.m)
    (h1 : (prune c w).mask r (g * c.m + t) = true) (h2 : (prune c w).mask r (g * c.m + t') = false) :
    saliency c.hinv (obs c.hinv (alive c w) (prune c w).mask (g * c.m)) r (g * c.m + t) ≤
      saliency c.hinv (obs c.hinv (alive c w) (prune c w).mask (g * c.m)) r (g * c.m + t') := by
  have herr := (C42_pattern_partial c w hn hnm hd hb hb0).1
  obtain ⟨_, e⟩ := prune_ok herr
  rw [e] at herr h1 h2 ⊢
  obtain ⟨p, hp⟩ := hb
  obtain ⟨q, hq⟩ := hd
  obtain ⟨b1, b2, b3⟩ := block_of_col c hb0.ne' (g * c.m) (by omega)
  obtain ⟨w0, blk, hc, hw0, hin⟩ := blocks_start c w _ herr _ b1 (by omega)
  set B := g * c.m / c.blocksize with hB
  have hdiv : c.m ∣ min (B * c.blocksize + c.blocksize) c.cols := by
    rcases min_choice (B * c.blocksize + c.blocksize) c.cols with e | e <;> rw [e]
    · exact ⟨B * p + p, by rw [hp]; ring⟩
    · exact ⟨q, hq⟩
  obtain ⟨e', he⟩ := hdiv
  have hfit : g * c.m + c.m ≤ min (B * c.blocksize + c.blocksize) c.cols := by
    rw [he]
    have : g < e' := by
      by_contra hcon
      have := Nat.mul_le_mul_left c.m (not_lt.1 hcon)
      rw [he, Nat.mul_comm g] at b3
      omega
    have := Nat.mul_le_mul_left c.m this
    rw [Nat.mul_succ] at this
    rw [Nat.mul_comm g]
    exact this
  have hcount : c.m ∣ min (B * c.blocksize + c.blocksize) c.cols - B * c.blocksize :=
    Nat.dvd_sub ⟨e', he⟩ ⟨B * p, by rw [hp]; ring⟩
  have hstart : g * c.m - B * c.blocksize = (g - B * p) * c.m := by
    rw [Nat.sub_mul]
    congr 1
    rw [hp]; ring
  have hsum : B * c.blocksize + (g - B * p) * c.m = g * c.m := by omega
  have hsum' : ∀ t, B * c.blocksize + ((g - B * p) * c.m + t) = g * c.m + t := by omega
  rw [(hin r _ (by omega) (by omega)).2, show g * c.m + t - B * c.blocksize = (g - B * p) * c.m + t by omega] at h1
  rw [(hin r _ (by omega) (by omega)).2, show g * c.m + t' - B * c.blocksize = (g - B * p) * c.m + t' by omega] at h2
  have := cols_group_saliency c (B * c.blocksize) _ w0 (alive c w) _ hn.ne' (by omega) hnm hcount hw0 _ blk (le_refl _) hc (by
    intro r t ht
    have h2 := (hin r (B * c.blocksize + t) (by omega) (by omega)).2
    rw [Nat.add_sub_cancel_left] at h2
    exact h2.symm) r (g - B * p) (by omega) t t' ht ht' h1 h2
  rw [hsum, hsum', hsum'] at this
  exact this

/-- With a sparsity ratio: in each block of columns the selected weights are those with the
smallest saliency, taken of the weights as the removals in the blocks before have left them. -/
theorem C42_block_choice (c : Cfg) (w : Mat) (hn : c.n = 0) (h : (prune c w).err = none) (b r r' j j' : Nat)
    (hj : b * c.blocksize ≤ j) (hj2 : j < b * c.blocksize + c.blocksize) (hj3 : j < c.cols)
    (hj' : b * c.blocksize ≤ j') (hj2' : j' < b * c.blocksize + c.blocksize) (hj3' : j' < c.cols)
    (h1 : (prune c w).mask r j = true) (h2 : (prune c w).mask r' j' = false) :
    saliency c.hinv (obs c.hinv (alive c w) (prune c w).mask (b * c.blocksize)) r j ≤
      saliency c.hinv (obs c.hinv (alive c w) (prune c w).mask (b * c.blocksize)) r' j' := by
  obtain ⟨hb, e⟩ := prune_ok h
  rw [e] at h h1 h2 ⊢
  obtain ⟨b1, b2, b3⟩ := block_of_col c hb j hj3
  have hB : j / c.blocksize = b := by
    rw [Nat.div_eq_iff (by omega)]
    constructor
    · exact hj
    · omega
  rw [hB] at b1 b2 b3
  obtain ⟨w0, blk, hc, hw0, hq⟩ := blocks_start c w _ h _ b1 (by omega)
  have hs := cols_ratio_mask c _ _ w0 hn _ blk hc
  rw [(hq r j (by omega) (by omega)).2] at h1
  rw [(hq r' j' (by omega) (by omega)).2] at h2
  have := startMask_ratio hn hs _ _ _ _ h1 h2
  simp only [score] at this
  rw [hw0, hw0, Nat.add_sub_cancel' hj, Nat.add_sub_cancel' hj'] at this
  exact this

/-- Two block sizes give different results only through the selection: with the same selection the
weights are the same. -/
theorem C42_block_size (c c' : Cfg) (w : Mat) (hc : c'.cols = c.cols) (hu : c'.hinv = c.hinv) (hdead : c'.dead = c.dead)
    (h : (prune c w).err = none) (h' : (prune c' w).err = none) (r : Nat)
    (hm : ∀ r j, j < c.cols → (prune c w).mask r j = (prune c' w).mask r j) (j : Nat) (hj : j < c.cols) :
    (prune c w).w r j = (prune c' w).w r j := by
  rw [C42_compensation c w h r j hj, C42_compensation c' w h' r j (by omega), hm r j hj, hu,
    obs_congr c.hinv (alive c w) _ _ j fun r i hi => hm r i (by omega)]
  have : alive c' w = alive c w := by unfold alive; rw [hdead]
  rw [this]

example : (prune (coupled 2) ramp).err = none ∧
    ((List.range 4).map fun j => (prune (coupled 2) ramp).w 0 j) = [0, 3 / 2, 5 / 2, 0] ∧
    ((List.range 4).map fun j => (prune (coupled 4) ramp).w 0 j) = [0, 3 / 2, 5 / 2, 0] := by
  refine ⟨?_, ?_, ?_⟩ <;> decide +kernel

/-- Pruning `n` of every `0` weights is refused at the first column of the first block. -/
theorem C42_group_zero (c : Cfg) (w : Mat) (hn : 0 < c.n) (hm : c.m = 0) (hb : 0 < c.blocksize) (hc : 0 < c.cols) :
    (prune c w).err = some .zeroDivision := by
  have h0 : (blockStep c 0 (blocks c w 0)).err = some .zeroDivision := by
    have hcols : ∀ (k : Nat) (w1 : Mat) i1 count, 0 < k → cols c i1 count w1 k = .error .zeroDivision := by
      intro k w1 i1 count hk
      induction k with
      | zero => omega
      | succ k ih =>
        rcases Nat.eq_zero_or_pos k with rfl | hk'
        · simp [cols, colStep, groupMask, startMask, hn.ne', hm, bind, Except.bind, pure, Except.pure]
        · simp [cols, ih hk', bind, Except.bind]
    simp only [blockStep]
    rw [hcols _ _ _ _ (by omega)]
    rfl
  have hkeep : ∀ k, (blocks c w (k + 1)).err = some .zeroDivision := by
    intro k
    induction k with
    | zero => exact h0
    | succ k ih =>
      rw [blocks, blockStep, ih]
  have hpos : 0 < (c.cols + c.blocksize - 1) / c.blocksize := Nat.div_pos (by omega) hb
  obtain ⟨k, hk⟩ : ∃ k, (c.cols + c.blocksize - 1) / c.blocksize = k + 1 := ⟨_, (Nat.succ_pred_eq_of_pos hpos).symm⟩
  rw [prune, if_neg (by omega), hk]
  simp only [hkeep k]

end Verif.SparseGpt
