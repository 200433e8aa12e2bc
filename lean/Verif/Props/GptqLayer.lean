import Verif.Lemmas.GptqLayer

/-! C54: quantising a layer with GPTQ. -/
namespace Verif.GptqLayer
open Verif Verif.GptqQuantizer

/-- With a CUDA device, a positive block size and a group size other than zero the layer is
quantised; a block size or group size of zero is an error. -/
theorem C54_total (c : Cfg) (w : Mat) (hc : 0 < c.cols) :
    (0 < c.blocksize → c.groupsize ≠ some 0 → c.cuda = true → ∃ res, quant c w = (res.w, .ok res)) ∧
    (c.blocksize = 0 → (quant c w).2 = .error .value) ∧
    (0 < c.blocksize → c.groupsize = some 0 → (quant c w).2 = .error .zeroDivision) := by
  refine ⟨fun hb hg hcu => ?_, fun hb => ?_, fun hb hg => ?_⟩
  · obtain ⟨s, hs⟩ := blocks_ok c w hg ((c.cols + c.blocksize - 1) / c.blocksize)
    unfold quant
    dsimp only
    rw [if_neg (by omega), hs]
    dsimp only
    rw [if_neg (by simp [hcu])]
    exact ⟨⟨fun r j => s.q r (invperm c j), if s.qz.groups = [] then [s.qz.cur] else s.qz.groups,
      fun j => invperm c j / c.groupsize.getD c.cols, s.loss⟩, rfl⟩
  · unfold quant
    dsimp only
    rw [if_pos hb]
  · unfold quant
    dsimp only
    rw [if_neg (by omega), blocks_error c w hg hc hb _ (Nat.div_pos (by omega) hb)]

/-- Every weight is the rounding, with the recorded parameters of its group, of the weight that is
left when the errors of all columns treated before have been compensated — in whatever blocks and
order the columns are treated. -/
theorem C54_rounded (c : Cfg) (w w' : Mat) (res : Result) (hc : 0 < c.cols) (hu : Usable c) (hp : c.perm.Perm (List.range c.cols))
    (h : quant c w = (w', .ok res)) (r t : Nat) (ht : t < c.cols) :
    ∃ p, res.params[res.gidx (c.perm.getD t 0)]? = some p ∧ Good (p r) ∧
      treated c w' r t = quantize c.maxq (p r) (comp c.hinv (ordered c w) (treated c w') t r t) := by
  obtain ⟨_, hg, _, h2, _, h4, z, h5, h6⟩ := quant_spec c w w' res hc hp h
  have := (params_get c w _ z hc hg h5).2 t ht
  refine ⟨_, ?_, paramsAt_good c hu w (treated c w') t r, ?_⟩
  · rw [h6, h2]
    dsimp only
    rw [(perm_getD c hp t ht).2.2.1]
    exact this
  · rw [h4 r t ht, quantizeCol_usable c hu]

/-- Every weight is on the grid of the recorded parameters of its group. -/
theorem C54_grid (c : Cfg) (w w' : Mat) (res : Result) (hc : 0 < c.cols) (hu : Usable c) (hp : c.perm.Perm (List.range c.cols))
    (h : quant c w = (w', .ok res)) (r j : Nat) (hj : j < c.cols) :
    ∃ p, res.params[res.gidx j]? = some p ∧ OnGrid c.maxq (p r) (w' r j) := by
  obtain ⟨h1, h2, _, _⟩ := perm_getD c hp j hj
  obtain ⟨p, e1, e2, e3⟩ := C54_rounded c w w' res hc hu hp h r _ h2
  rw [h1] at e1
  refine ⟨p, e1, ?_⟩
  unfold treated at e3
  rw [h1] at e3
  rw [e3]
  obtain ⟨⟨bits, hb, hm⟩, _⟩ := hu
  rw [hm]
  exact (C39_grid bits _ e2 _).1

/-- The columns are grouped by their place in the order of treatment. The parameters of a group are
those of the weights of its columns, as they are when the errors of the columns before the block in
which the group starts have been compensated. -/
theorem C54_group_params (c : Cfg) (w w' : Mat) (res : Result) (gs : Nat) (hc : 0 < c.cols) (hp : c.perm.Perm (List.range c.cols))
    (hg : c.groupsize = some gs) (hch : c.perchannel = true) (h : quant c w = (w', .ok res)) :
    res.params.length = (c.cols + gs - 1) / gs ∧ (∀ t, t < c.cols → res.gidx (c.perm.getD t 0) = t / gs) ∧
    ∀ g p, res.params[g]? = some p → ∀ r, p r = findParams c.maxq c.sym c.mse
      (((List.range c.cols).filter fun t => t / gs == g).map
        (comp c.hinv (ordered c w) (treated c w') (g * gs / c.blocksize * c.blocksize) r)) := by
  obtain ⟨_, hg0, _, h2, _, h4, z, h5, h6⟩ := quant_spec c w w' res hc hp h
  have hps := params_get c w _ z hc hg0 h5
  rw [← h6, hg] at hps
  dsimp only at hps
  have hpos : 0 < gs := Nat.pos_of_ne_zero (by rintro rfl; exact hg0 hg)
  refine ⟨hps.1, ?_, ?_⟩
  · intro t ht
    rw [h2]
    dsimp only
    rw [(perm_getD c hp t ht).2.2.1, hg]
    rfl
  · intro g p hgp r
    have hl : g < (c.cols + gs - 1) / gs := by
      rw [← hps.1]
      by_contra hn
      rw [List.getElem?_eq_none (by omega)] at hgp
      cases hgp
    have hlt : g * gs < c.cols := by
      rw [Nat.lt_div_iff_mul_lt hpos] at hl
      omega
    have := hps.2 (g * gs) hlt
    simp only [Option.getD_some, Nat.mul_div_cancel _ hpos] at this
    rw [hgp] at this
    rw [Option.some.inj this]
    unfold paramsAt
    rw [hg]
    dsimp only
    unfold find
    simp only [hch, if_true, Nat.mul_div_cancel _ hpos]
    congr 1
    congr 1
    apply List.Perm.eq_of_pairwise' (r := (· < ·))
    · exact (List.pairwise_lt_range.drop).take
    · exact List.pairwise_lt_range.filter _
    · apply (List.perm_ext_iff_of_nodup _ _).2
      · intro a
        rw [List.mem_filter, List.mem_range, List.mem_take_iff_getElem]
        simp only [beq_iff_eq, List.getElem_drop, List.getElem_range, List.length_drop, List.length_range]
        constructor
        · rintro ⟨i, hi, rfl⟩
          refine ⟨by omega, ?_⟩
          rw [Nat.mul_comm, Nat.mul_add_div hpos, Nat.div_eq_of_lt (by omega), Nat.add_zero]
        · rintro ⟨h1, rfl⟩
          have e := Nat.div_add_mod a gs
          have e2 := Nat.mod_lt a hpos
          rw [Nat.mul_comm] at e
          exact ⟨a % gs, by omega, by omega⟩
      · exact (List.nodup_range.drop).take
      · exact List.nodup_range.filter _

/-- Without groups there is one set of parameters: the quantiser's own, else those of the whole rows
before the columns of dead inputs are set to zero. -/
theorem C54_whole_params (c : Cfg) (w w' : Mat) (res : Result) (hc : 0 < c.cols) (hp : c.perm.Perm (List.range c.cols))
    (hg : c.groupsize = none) (hch : c.perchannel = true) (h : quant c w = (w', .ok res)) :
    (∀ j, j < c.cols → res.gidx j = 0) ∧
    ∃ p, res.params = [p] ∧ (∀ p0, c.init = some p0 → p = p0) ∧
      (c.init = none → ∀ r, p r = findParams c.maxq c.sym c.mse ((List.range c.cols).map (w r))) := by
  obtain ⟨_, hg0, _, h2, _, h4, z, h5, h6⟩ := quant_spec c w w' res hc hp h
  unfold Inv at h5
  rw [hg] at h5
  dsimp only at h5
  subst h5
  rw [if_pos rfl] at h6
  refine ⟨?_, _, h6, ?_, ?_⟩
  · intro j hj
    rw [h2, hg]
    exact Nat.div_eq_of_lt (perm_getD c hp j hj).2.1
  · intro p0 e
    rw [e]; rfl
  · intro e r
    rw [e]
    simp only [Option.getD_none]
    unfold find
    simp only [hch, if_true, List.drop_zero]
    rw [List.take_of_length_le (by simp)]

/-- One set of parameters for the whole tensor: all rows have the same ones. -/
theorem C54_per_tensor (c : Cfg) (w w' : Mat) (res : Result) (hc : 0 < c.cols) (hp : c.perm.Perm (List.range c.cols))
    (hch : c.perchannel = false) (hi : c.init = none) (h : quant c w = (w', .ok res)) :
    ∀ p ∈ res.params, ∀ r r', p r = p r' := by
  obtain ⟨_, hg0, _, h2, _, h4, z, h5, h6⟩ := quant_spec c w w' res hc hp h
  have hf : ∀ w a b r r', find c w a b r = find c w a b r' := by
    intro w a b r r'
    unfold find
    simp only [hch, Bool.false_eq_true, if_false]
  intro p hpm r r'
  unfold Inv at h5
  cases hg : c.groupsize with
  | none =>
    rw [hg] at h5
    dsimp only at h5
    subst h5
    rw [if_pos rfl] at h6
    rw [h6, List.mem_singleton] at hpm
    subst hpm
    rw [hi]
    exact hf _ _ _ _ _
  | some gs =>
    rw [hg] at h5
    dsimp only at h5
    obtain ⟨_, i2, i3, i4⟩ := h5
    have hpa : ∀ j, paramsAt c w (treated c w') j r = paramsAt c w (treated c w') j r' := by
      intro j
      unfold paramsAt
      rw [hg]
      exact hf _ _ _ _ _
    by_cases he : z.groups = []
    · rw [if_pos he] at h6
      rw [h6, List.mem_singleton] at hpm
      subst hpm
      rw [i4 hc]
      exact hpa _
    · rw [if_neg he] at h6
      rw [h6] at hpm
      obtain ⟨g, hg', e⟩ := List.getElem_of_mem hpm
      rw [← e, i3]
      exact hpa _

/-- The returned error is half the squared change of the outputs (for the damped matrix of the
inputs), summed over the rows. -/
theorem C54_loss (c : Cfg) (w w' : Mat) (res : Result) (hm : Mat) (hc : 0 < c.cols) (hp : c.perm.Perm (List.range c.cols))
    (h : quant c w = (w', .ok res)) (hf : Compensate.IsFactor c.cols hm c.hinv) :
    res.loss = ((List.range c.rows).map fun r =>
      Compensate.quadErr c.cols hm (fun t => ordered c w r t - treated c w' r t) / 2).sum := by
  obtain ⟨_, hg0, _, _, h3, h4, z, h5, h6⟩ := quant_spec c w w' res hc hp h
  have key : ∀ r, Compensate.quadErr c.cols hm (fun t => ordered c w r t - treated c w' r t) / 2 =
      ∑ t ∈ Finset.range c.cols, (comp c.hinv (ordered c w) (treated c w') t r t - treated c w' r t) ^ 2 / c.hinv t t ^ 2 / 2 := by
    intro r
    have := (Compensate.compensate hf (ordered c w r) (treated c w' r) (fun k j => comp c.hinv (ordered c w) (treated c w') k r j)
      (fun k => (comp c.hinv (ordered c w) (treated c w') k r k - treated c w' r k) / c.hinv k k) (fun j => rfl)
      (fun k j => rfl) (fun k hk => div_mul_cancel₀ _ (hf.2.1 k hk)) c.cols (le_refl _)).1
    rw [← Finset.sum_div]
    congr 1
    rw [show (∑ t ∈ Finset.range c.cols, (comp c.hinv (ordered c w) (treated c w') t r t - treated c w' r t) ^ 2 / c.hinv t t ^ 2) =
      ∑ t ∈ Finset.range c.cols, ((comp c.hinv (ordered c w) (treated c w') t r t - treated c w' r t) / c.hinv t t) ^ 2 from
        Finset.sum_congr rfl fun t _ => (div_pow _ _ 2).symm, ← this]
    unfold Compensate.quadErr
    apply Finset.sum_congr rfl
    intro a ha
    apply Finset.sum_congr rfl
    intro b hb
    rw [Finset.mem_range] at ha hb
    dsimp only
    rw [if_pos ha, if_pos hb]
  rw [h3, Compensate.list_sum_range]
  unfold lossOf
  simp only [Compensate.list_sum_range, key, Nat.zero_add]
  exact Finset.sum_comm

/-- The weight that is rounded is the best there is: when a column is treated, what is rounded is its
entry in a row `x` that has the new weights in the columns treated before and, among all such rows,
the least squared change of the outputs. -/
theorem C54_optimal (c : Cfg) (w w' : Mat) (res : Result) (hm : Mat) (hc : 0 < c.cols) (hu : Usable c) (hp : c.perm.Perm (List.range c.cols))
    (h : quant c w = (w', .ok res)) (hf : Compensate.IsFactor c.cols hm c.hinv) (r t : Nat) (ht : t < c.cols) :
    ∃ (x : Nat → ℚ) (p : Params), (∀ j < t, x j = treated c w' r j) ∧
      (∀ v : Nat → ℚ, (∀ j < t, v j = treated c w' r j) →
        Compensate.quadErr c.cols hm (fun j => ordered c w r j - x j) ≤ Compensate.quadErr c.cols hm (fun j => ordered c w r j - v j)) ∧
      res.params[res.gidx (c.perm.getD t 0)]? = some p ∧ treated c w' r t = quantize c.maxq (p r) (x t) := by
  obtain ⟨p, e1, _, e3⟩ := C54_rounded c w w' res hc hu hp h r t ht
  obtain ⟨h1, h2⟩ := Compensate.compensate hf (ordered c w r) (treated c w' r) (fun k j => comp c.hinv (ordered c w) (treated c w') k r j)
      (fun k => (comp c.hinv (ordered c w) (treated c w') k r k - treated c w' r k) / c.hinv k k) (fun j => rfl)
      (fun k j => rfl) (fun k hk => div_mul_cancel₀ _ (hf.2.1 k hk)) t (by omega)
  refine ⟨fun j => if j < t then treated c w' r j else comp c.hinv (ordered c w) (treated c w') t r j, p, ?_, ?_, e1, ?_⟩
  · intro j hj
    dsimp only
    rw [if_pos hj]
  · intro v hv
    rw [h1]
    exact h2 v hv
  · dsimp only
    rw [if_neg (by omega)]
    exact e3

/-- Partial: without groups, or when both block sizes divide the group size, the block size makes no
difference. Missing: other group sizes, see `C54_block_size_violated`. -/
theorem C54_block_size_partial (c : Cfg) (b b' : Nat) (w w' v' : Mat) (res res' : Result) (hc : 0 < c.cols)
    (hp : c.perm.Perm (List.range c.cols)) (hg : ∀ gs, c.groupsize = some gs → b ∣ gs ∧ b' ∣ gs)
    (h : quant { c with blocksize := b } w = (w', .ok res)) (h' : quant { c with blocksize := b' } w = (v', .ok res')) :
    (∀ r j, j < c.cols → w' r j = v' r j) ∧ res.params = res'.params ∧ res.gidx = res'.gidx ∧ res.loss = res'.loss := by
  refine quant_congr { c with blocksize := b } { c with blocksize := b' } w w w' v' res res' hc hp rfl rfl rfl rfl rfl ?_ rfl rfl h h'
  intro q q' j hj hqq
  rw [paramsAt_congr _ w q q' j hqq]
  unfold paramsAt
  cases hgc : c.groupsize with
  | none => rfl
  | some gs =>
    obtain ⟨h1, h2⟩ := hg gs hgc
    dsimp only
    rw [Nat.div_mul_cancel (h1.mul_left _), Nat.div_mul_cancel (h2.mul_left _)]
    rfl

/-- With groups the weights of the columns of dead inputs make no difference. -/
theorem C54_dead (c : Cfg) (w v w' v' : Mat) (res res' : Result) (hc : 0 < c.cols) (hp : c.perm.Perm (List.range c.cols))
    (gs : Nat) (hg : c.groupsize = some gs) (hd : ∀ r j, c.dead j = false → w r j = v r j)
    (h : quant c w = (w', .ok res)) (h' : quant c v = (v', .ok res')) :
    (∀ r j, j < c.cols → w' r j = v' r j) ∧ res.params = res'.params ∧ res.gidx = res'.gidx ∧ res.loss = res'.loss := by
  have ho : ordered c w = ordered c v := by
    funext r j
    unfold ordered
    by_cases hdj : c.dead (c.perm.getD j 0) = true
    · rw [if_pos hdj, if_pos hdj]
    · rw [if_neg hdj, if_neg hdj, hd r _ (by simpa using hdj)]
  refine quant_congr c c w v w' v' res res' hc hp rfl rfl rfl rfl rfl ?_ rfl ho h h'
  intro q q' j hj hqq
  rw [paramsAt_congr _ w q q' j hqq]
  unfold paramsAt
  rw [hg]
  dsimp only
  rw [ho]

/-- The order of treatment is an order of the columns; with `actorder` by falling diagonal entry (one
for a dead input), else from left to right. -/
theorem C54_order (cols : Nat) (actorder : Bool) (diag : Nat → ℚ) (dead : Nat → Bool) :
    (order cols actorder diag dead).Perm (List.range cols) ∧ (actorder = false → order cols actorder diag dead = List.range cols) ∧
    (actorder = true → (order cols actorder diag dead).Pairwise fun a b =>
      (if dead b = true then 1 else diag b) ≤ (if dead a = true then 1 else diag a)) := by
  unfold order
  cases actorder with
  | false => simp
  | true =>
    simp only [if_true]
    refine ⟨sortBy_perm _, by simp, fun _ => ?_⟩
    have := sortBy_sorted (le := fun a b => decide ((if dead b = true then 1 else diag b) ≤ (if dead a = true then 1 else diag a)))
      (by intro a b c h1 h2; simp only [decide_eq_true_eq] at *; exact le_trans h2 h1)
      (by intro a b; simp only [decide_eq_true_eq]; exact le_total _ _) (List.range cols)
    exact this.imp fun h => by simpa using h

/-- Violated in general: a group that starts inside a block gets the parameters of weights whose
corrections by the earlier columns of the block are still missing, so its weights are rounded with a
range that does not fit, and the result depends on the block size. -/
theorem C54_block_size_violated :
    (quant (small 2 (some 2) true) (row4 0)).2.isOk = true ∧ (quant (small 4 (some 2) true) (row4 0)).2.isOk = true ∧
    newRow (small 2 (some 2) true) (row4 0) = [1, 2 / 3, 7 / 12, 0] ∧
    newRow (small 4 (some 2) true) (row4 0) = [1, 2 / 3, 1 / 2, 0] := by
  decide +kernel

/-- Violated: without groups the weight of a dead input, which cannot influence any output, is in the
range of the row: a large one makes all other weights zero. -/
theorem C54_dead_violated :
    (quant (small 4 none true) (row4 7)).2.isOk = true ∧
    newRow (small 4 none true) (row4 7) = [0, 0, 0, 0] ∧ newRow (small 4 none true) (row4 0) = [1, 2 / 3, 2 / 3, 0] := by
  decide +kernel

/-- Violated: on a machine without a CUDA device `quant` fails at the synchronisation after all columns
are treated; the error is swallowed by the compressor, and the layer keeps weights that are neither
the old ones nor on the grid. -/
theorem C54_no_cuda_violated :
    (quant (small 1 none false) (row4 0)).2.isOk = false ∧ newRow (small 1 none false) (row4 0) = [1, 1 / 2, 7 / 12, 1 / 8] := by
  decide +kernel

/-- Without a CUDA device no layer is quantised; when the columns are reordered the weights stay as
they were, apart from the columns of dead inputs. -/
theorem C54_no_cuda (c : Cfg) (w : Mat) (h : c.cuda = false) :
    (∀ res, (quant c w).2 ≠ .ok res) ∧
    (c.actorder = true → ∀ r j, (quant c w).1 r j = if c.dead j = true then 0 else w r j) := by
  unfold quant
  dsimp only
  by_cases hb : c.blocksize = 0
  · rw [if_pos hb]
    exact ⟨by simp, fun _ r j => rfl⟩
  rw [if_neg hb]
  cases blocks c w ((c.cols + c.blocksize - 1) / c.blocksize) with
  | error e => exact ⟨by simp, fun _ r j => rfl⟩
  | ok s =>
    dsimp only
    rw [if_pos h]
    refine ⟨by simp, fun ha r j => ?_⟩
    rw [if_pos ha]

/-- The factor of the small layer is the factor of some matrix, its settings are usable. -/
example : ∃ hm, Compensate.IsFactor 4 hm (small 2 (some 2) true).hinv ∧ Usable (small 2 (some 2) true) ∧
    (small 2 (some 2) true).perm.Perm (List.range (small 2 (some 2) true).cols) ∧
    (quant (small 2 (some 2) true) (row4 0)).2.isOk = true := by
  refine ⟨fun i j => ([[85 / 64, -11 / 32, -3 / 16, -1 / 8], [-11 / 32, 21 / 16, -3 / 8, -1 / 4],
    [-3 / 16, -3 / 8, 5 / 4, -1 / 2], [-1 / 8, -1 / 4, -1 / 2, 1]].getD i []).getD j 0, ?_, ⟨⟨2, by norm_num, rfl⟩, by simp [small],
    by simp [small]⟩, List.Perm.refl _, by decide +kernel⟩
  unfold Compensate.IsFactor
  decide +kernel

/-- Without a GPU the quantisation of a layer always fails after the work is done, by an assertion. -/
theorem C54_no_gpu (c : Cfg) (w : Mat) (hc : c.cuda = false) (hb : c.blocksize ≠ 0) {s}
    (hs : blocks c w ((c.cols + c.blocksize - 1) / c.blocksize) = .ok s) : (quant c w).2 = .error .assertion := by
  simp [quant, hb, hs, hc]

end Verif.GptqLayer
